{"claims": [
  {"property": "C01", "status": "proved", "theorems": ["Imodal.C01_unroll_order", "Imodal.C01_roll_unroll", "Imodal.C01_unroll_roll", "Imodal.C01_roll_consumes"], "note": "All manifold trees. Partial failures of pop(0) on short lists are covered by C01_roll_consumes only in the successful case."},
  {"property": "C02", "status": "proved", "theorems": ["Imodal.C02_copy_isolates", "Imodal.C02_ref_aliases", "Imodal.C02_ref_write_visible", "Imodal.C02_clone_isolates", "Imodal.C02_clone_default_raises"], "note": "Heap model of tensors and storages. clone() with its default argument raises TypeError on non-compound manifolds (C02_clone_default_raises)."},
  {"property": "C03", "status": "proved", "theorems": ["Imodal.C03_add", "Imodal.C03_negate", "Imodal.C03_negate_involutive", "Imodal.C03_add_cancel", "Imodal.C03_history"], "note": "Over an arbitrary additive group."},
  {"property": "C04", "status": "partial", "theorems": ["Imodal.C04_report_partial", "Imodal.C04_to_device", "Imodal.C04_stale_after_fill"], "note": "Holds for histories whose fills use the reported device and dtype; disproved otherwise (C04_stale_after_fill)."},
  {"property": "C05", "status": "partial", "theorems": ["Imodal.C05_all_partial", "Imodal.C05_index_partial", "Imodal.C05_index_fails_after_fill", "Imodal.C05_fill_leaves_tuple"], "note": "requires_grad_ with an index raises after a fill, because the container then holds a tuple."},
  {"property": "C06", "status": "partial", "theorems": ["Imodal.C06_single_partial", "Imodal.C06_compound_not_atomic", "Imodal.C06_device_label_leaks"], "note": "A failing fill keeps the tensors of a single manifold; a compound manifold is left half filled and the device label changes."},
  {"property": "C07", "status": "partial", "theorems": ["Imodal.C07_read_back_partial", "Imodal.C07_rows_back_partial", "Imodal.C07_nested_disagreement", "Imodal.C07_no_coordinates"], "note": "Proved for every list of modules none of which is itself a compound: the state vector built from the module and read back gives the same descriptors and momenta, and conversely. Two disagreements with the full statement are proved: a nested compound member with descriptors raises AttributeError in the solver path, and a module without coordinates raises RuntimeError when the state vector is built."},
  {"property": "C08", "status": "proved", "theorems": ["Imodal.C08_symmetric", "Imodal.C08_diagonal", "Imodal.C08_range", "Imodal.C08_decreasing", "Imodal.C08_isometry", "Imodal.C08_eq_one_iff", "Imodal.C08_value", "Imodal.C08_entry_points"], "note": ""},
  {"property": "C09", "status": "proved", "theorems": ["Imodal.C09_derivative", "Imodal.C09_base", "Imodal.C09_orders", "Imodal.C09_hessian_symmetric"], "note": ""},
  {"property": "C10", "status": "proved", "theorems": ["Imodal.C10_posSemidef", "Imodal.C10_posDef", "Imodal.C10_invertible_iff", "Imodal.C10_sks0_field", "Imodal.C10_sks0_posSemidef", "Imodal.C10_sks0_posDef", "Imodal.C10_sks1_posSemidef", "Imodal.C10_sks1_posDef"], "note": "Also for the matrices of compute_sks; order 1 in dimensions 2 and 3."},
  {"property": "C100", "status": "proved", "theorems": ["Imodal.C100_unit", "Imodal.C100_states", "Imodal.C100_instant", "Imodal.C100_exists", "Imodal.C100_localScaling", "Imodal.C100_localRotation"], "note": "Over the reals, with exact automatic differentiation (also where a derivative does not exist, which the model sets to zero as elsewhere). Constrained translations are converted with their functions for supports and vectors; C100_localScaling and C100_localRotation show that local scalings and local rotations of the plane convert into themselves. Local rotations in space, whose vectors depend on the centre, convert into a constrained translation with the converted function, which is a local rotation with another control; that reparametrisation is not proved."},
  {"property": "C101", "status": "partial", "theorems": ["Imodal.C101_partial", "Imodal.C101_new", "Imodal.C101_deform", "Imodal.C101_evaluate", "Imodal.C101_best", "Imodal.C101_points", "Imodal.C101_curves", "Imodal.C101_meshes", "Imodal.C101_carries_points", "Imodal.C101_carries_mesh", "Imodal.C101_ones_disagreement"], "note": "The code disagrees for learnable controls that start from ones: one is not the same length in every unit (C101_ones_disagreement). Everything else is proved, for attachments and sources that convert (C101_points, C101_curves, C101_meshes, C101_carries_points, C101_carries_mesh). Images are not covered."},
  {"property": "C102", "status": "proved", "theorems": ["Imodal.C102_order", "Imodal.C102_energy", "Imodal.C102_angular"], "note": "Over the reals, with exact automatic differentiation. 'rk4' is the 3/8 rule of torchdiffeq. The constants depend on the solution, not on the number of steps."},
  {"property": "C103", "status": "partial", "theorems": ["Imodal.C103_dual_partial", "Imodal.C103_inner", "Imodal.C103_inner_disagreement", "Imodal.C103_action_disagreement", "Imodal.C103_sizes"], "note": "The code disagrees except for the dual field (C103_dual_partial): the pairing with any field is zero (C103_inner, C103_inner_disagreement), the action always raises AttributeError (C103_action_disagreement), and the numbers of entries are wrong if the groups have different sizes (C103_sizes). Over the reals; tangents, devices and dtypes are left out."},
  {"property": "C104", "status": "partial", "theorems": ["Imodal.C104_closed", "Imodal.C104_open", "Imodal.C104_refused", "Imodal.C104_index", "Imodal.C104_faces_partial", "Imodal.C104_faces_disagreement", "Imodal.C104_dimension_disagreement"], "note": "Marking points of the plane is proved in full (C104_closed, C104_open, C104_refused) with scipy's documented contract as hypothesis HullOf. extract_convex_hull disagrees twice: in dimensions above three it returns the class ValueError instead of raising it (C104_dimension_disagreement), and in space its faces index the given points, not the returned ones (C104_faces_disagreement); they fit if every point is a corner, in order (C104_faces_partial). Over the reals; marking points of space (Delaunay) is not modelled."},
  {"property": "C105", "status": "proved", "theorems": ["Imodal.C105_field", "Imodal.C105_bounds", "Imodal.C105_apart", "Imodal.C105_growth", "Imodal.C105_curve", "Imodal.C105_limit", "Imodal.C105_injective", "Imodal.C105_tight"], "note": "Over the reals. Euler's method: C105_bounds, C105_apart, C105_growth for compute_deformed from momenta or with given controls; attained by C105_tight. All methods: C105_curve along Hamilton's equations, C105_limit and C105_injective for shooting from momenta with sufficiently many steps, under the hypotheses of C80 and C102 (smooth module, a geodesic on the time interval)."},
  {"property": "C106", "status": "partial", "theorems": ["Imodal.C106_partial", "Imodal.C106_basis_written", "Imodal.C106_cells", "Imodal.C106_accepts", "Imodal.C106_reads", "Imodal.C106_points", "Imodal.C106_empty_disagreement", "Imodal.C106_basis_disagreement", "Imodal.C106_mesh_disagreement"], "note": "Growth factors and points proved. Not true: import_point_basis always raises TypeError (misspelt argument dype), DeformableMesh.load_from_file always raises AttributeError (mesh.cell_dict), and a file without points cannot be imported. Files are modelled as the arrays given to meshio."},
  {"property": "C107", "status": "partial", "theorems": ["Imodal.C107_partial", "Imodal.C107_origins", "Imodal.C107_channel", "Imodal.C107_rejects", "Imodal.C107_deformable", "Imodal.C107_integers_disagreement", "Imodal.C107_sampling_disagreement"], "note": "Values, order of rows, channels and rejections proved. Not true: integer pictures (formats other than PNG) are not normalised, so white becomes -254; load_and_sample_greyscale raises IndexError for every picture of two or more pixels."},
  {"property": "C108", "status": "partial", "theorems": ["Imodal.C108_grows", "Imodal.C108_partial", "Imodal.C108_free_disagreement"], "note": "Proved for one set of controls per step, for every solver, with modules that are regularised implicit modules of order zero and one (div-free and as rigid as possible), global translations, linear and silent modules. Not true with one set per evaluation, which a model built for the midpoint method or rk4 learns: C108_free_disagreement gives such a model whose totals have no smallest value."},
  {"property": "C109", "status": "proved", "theorems": ["Imodal.C109_bound", "Imodal.C109_reach"], "note": "Over the reals, for Euler's method, the reduction 'sum' and modules without linear ones, whose field is not bounded by its cost (see C91)."},
  {"property": "C11", "status": "proved", "theorems": ["Imodal.C11_derivative", "Imodal.C11_jacobian", "Imodal.C11_partial_derivative", "Imodal.C11_availability"], "note": ""},
  {"property": "C110", "status": "partial", "theorems": ["Imodal.C110_partial", "Imodal.C110_final", "Imodal.C110_total", "Imodal.C110_nan", "Imodal.C110_naninf_disagreement", "Imodal.C110_njev_disagreement", "Imodal.C110_left_disagreement"], "note": "SciPy's minimize is any program that evaluates, calls back and stops. Proved: what it is given, the costs the callback sees, the final cost, ValueError for NaN. Not true: naninf (AttributeError), neval_grad is never in the result, and the model is left with the parameters of the last evaluation, not with those of the final cost."},
  {"property": "C111", "status": "partial", "theorems": ["Imodal.C111_curves", "Imodal.C111_meshes_partial", "Imodal.C111_optimum", "Imodal.C111_collapse_disagreement"], "note": "Proved for curves (continuous everywhere, smooth where no segment collapses) and the optimum. For meshes proved unless there are exactly three triangles or one has no area, where the loss is NaN or the normals are wrong (C61). C111_collapse_disagreement shows that smoothness is lost where a segment collapses, so the condition is needed. Over the reals."},
  {"property": "C112", "status": "partial", "theorems": ["Imodal.C112_partial", "Imodal.C112_continue", "Imodal.C112_reset", "Imodal.C112_rejects", "Imodal.C112_options_disagreement", "Imodal.C112_neval_disagreement"], "note": "The torch optimiser is any constructor and step. Proved for steps that return and evaluate. Not true: the options of a second call without reset are ignored, and with a NaN cost the entry for the number of evaluations is that NaN."},
  {"property": "C113", "status": "partial", "theorems": ["Imodal.C113_minimum", "Imodal.C113_fixed", "Imodal.C113_rests", "Imodal.C113_registration_partial", "Imodal.C113_far_disagreement"], "note": "Over the reals. The last sentence is not true: with a small enough step length convergence is reported at points where the gradient is not small, for every positive tolerance."},
  {"property": "C114", "status": "proved", "theorems": ["Imodal.C114_costs", "Imodal.C114_deformed", "Imodal.C114_evaluate", "Imodal.C114_start", "Imodal.C114_bound", "Imodal.C114_fit"], "note": "Over the reals, for costs reduced by sum or previous. The statements about fitting are for registrations as in C95. The momenta of new shapes and modules are zero unless given."},
  {"property": "C115", "status": "proved", "theorems": ["Imodal.C115_start", "Imodal.C115_fit", "Imodal.C115_converges", "Imodal.C115_rests"], "note": "Over the reals, with exact automatic differentiation, the reduction sum and the method the model was built for. A model built for rk4 and run with euler leaves controls without a gradient, on which the optimiser raises; this is not modelled."},
  {"property": "C116", "status": "proved", "theorems": ["Imodal.C116_shoot", "Imodal.C116_value", "Imodal.C116_gradient", "Imodal.C116_fit"], "note": "Over the reals, for euler, midpoint and rk4 and the reduction sum. The first two compare runs that return; C115 has conditions under which all do."},
  {"property": "C117", "status": "proved", "theorems": ["Imodal.C117_start", "Imodal.C117_fit", "Imodal.C117_converges", "Imodal.C117_gradient", "Imodal.C117_rests_iff", "Imodal.C117_minimum"], "note": "Over the reals, for euler, midpoint and rk4, with exact gradients. The gradient theorem is for momenta only. As in C84 the fitted descriptors are those of the first subject; an optimised template makes evaluate raise (C38)."},
  {"property": "C118", "status": "partial", "theorems": ["Imodal.C118_grid", "Imodal.C118_arrows", "Imodal.C118_arrow_lengths", "Imodal.C118_ellipses", "Imodal.C118_aspect", "Imodal.C118_aspect_again", "Imodal.C118_inverted_disagreement", "Imodal.C118_box_partial", "Imodal.C118_box_axes", "Imodal.C118_basis", "Imodal.C118_basis_refused", "Imodal.C118_box_disagreement", "Imodal.C118_polyline", "Imodal.C118_polyline_empty", "Imodal.C118_closed"], "note": "plot_aabb exchanges the coordinates of the corner but not the lengths, so it draws the box only if its two lower limits agree (C118_box_disagreement). An axis of a 3D plot that runs from large to small is turned round (C118_inverted_disagreement)."},
  {"property": "C119", "status": "proved", "theorems": ["Imodal.C119_items", "Imodal.C119_iterate", "Imodal.C119_names", "Imodal.C119_sizes", "Imodal.C119_random_density", "Imodal.C119_random_negative", "Imodal.C119_uniform_density", "Imodal.C119_uniform_rejected"], "note": "Exact arithmetic. Attribute names other than the nine numeric ones are not modelled."},
  {"property": "C12", "status": "proved", "theorems": ["Imodal.C12_field0", "Imodal.C12_fieldP", "Imodal.C12_fieldM", "Imodal.C12_keops_missing", "Imodal.C12_agree"], "note": "KeOps formulas are read with their documented meaning."},
  {"property": "C120", "status": "proved", "theorems": ["Imodal.C120_space", "Imodal.C120_torch", "Imodal.C120_tight"], "note": "Over the reals, for Euler's method, and torch_euler from momenta (C120_torch); modules with positive weights as in C105. midpoint and rk4 combine several fields per step and are not covered."},
  {"property": "C121", "status": "proved", "theorems": ["Imodal.C121_carried", "Imodal.C121_momenta", "Imodal.C121_torch"], "note": "Over the reals, for euler, midpoint and rk4 of the ode solver, and torch_euler from momenta. torch_euler with given controls is in C127. From momenta, shapes without momentum are put first in the list."},
  {"property": "C122", "status": "proved", "theorems": ["Imodal.C122_back"], "note": "Over the reals, for euler, midpoint and rk4 of the ode solver, from momenta. torch_euler ignores the duration and is not covered. The way back is only as exact as the method: it is not the exact inverse."},
  {"property": "C123", "status": "proved", "theorems": ["Imodal.C123_order", "Imodal.C123_back", "Imodal.C123_exists"], "note": "Over the reals, for euler, midpoint and rk4 of the ode solver and one control for the whole duration. Lists with a control for each step are not covered."},
  {"property": "C124", "status": "partial", "theorems": ["Imodal.C124_partial", "Imodal.C124_sum", "Imodal.C124_torch", "Imodal.C124_iterator_disagreement", "Imodal.C124_storage_disagreement", "Imodal.C124_dim_disagreement", "Imodal.C124_needs_iterable", "Imodal.C124_compound_partial", "Imodal.C124_compound_disagreement"], "note": "Proved for containers of widths and of members, and for shapes stored in one way (with torch in any way). False for iterators, which the first call uses up, and for the KeOps attachment for surfaces when device or dtype change. dim of an attachment for surfaces is not a number. Members of a compound keep no state here."},
  {"property": "C125", "status": "partial", "theorems": ["Imodal.C125_still", "Imodal.C125_lists", "Imodal.C125_refused", "Imodal.C125_iterator_disagreement"], "note": "Proved for containers. False for iterators: deformables and attachments raise TypeError, and modules are used up while the model is built, so that with geodesic controls nothing is deformed. Learned controls with an iterator of modules are in the model but no theorem is about them."},
  {"property": "C126", "status": "partial", "theorems": ["Imodal.C126_points", "Imodal.C126_shapes", "Imodal.C126_action", "Imodal.C126_turn", "Imodal.C126_affine", "Imodal.C126_space_partial", "Imodal.C126_projective_disagreement", "Imodal.C126_space_shapes"], "note": "Proved for all of linear_transform, and for apply_linear_transform_3d with affine matrices. False for other 4 x 4 matrices, whose fourth coordinate is dropped. Both tensors have the default dtype."},
  {"property": "C127", "status": "partial", "theorems": ["Imodal.C127_agrees", "Imodal.C127_short", "Imodal.C127_short_disagreement", "Imodal.C127_deformed", "Imodal.C127_carried"], "note": "Proved for at least as many controls as steps. False for fewer: torch_euler raises, while the ode solver uses the first control throughout and ignores the others. Which exception is raised is not compared. Over the reals."},
  {"property": "C128", "status": "partial", "theorems": ["Imodal.C128_registration", "Imodal.C128_assigned", "Imodal.C128_refused", "Imodal.C128_public", "Imodal.C128_atlas_partial", "Imodal.C128_atlas_disagreement", "Imodal.C128_optimizer", "Imodal.C128_kwargs_disagreement"], "note": "Proved for registration models, for the weight, callback, models and attachments of atlases with a subject, and for the model of an optimiser. False otherwise: compute_mode and attachement of an atlas and kwargs of an optimiser raise AttributeError, template is None, and attachments raise IndexError without subjects. Deleting attributes and assigning to names that begin with an underscore are left out."},
  {"property": "C129", "status": "partial", "theorems": ["Imodal.C129_grids_partial", "Imodal.C129_docstring_disagreement", "Imodal.C129_zero"], "note": "Proved for the coordinates, the shapes and the agreement with fill_uniform_spacing. False for the promise of the docstring: one tensor per axis is returned instead of one of shape [N, dim]. Over ordered fields, not floating point."},
  {"property": "C13", "status": "proved", "theorems": ["Imodal.C13_sum_value", "Imodal.C13_sum_returns", "Imodal.C13_order", "Imodal.C13_nesting", "Imodal.C13_constructor", "Imodal.C13_linear_field0", "Imodal.C13_linear_fieldP", "Imodal.C13_linear_fieldM", "Imodal.C13_linear_field0u", "Imodal.C13_linear_field1", "Imodal.C13_zero_moments"], "note": ""},
  {"property": "C130", "status": "partial", "theorems": ["Imodal.C130_own_model_partial", "Imodal.C130_standard", "Imodal.C130_other_model_disagreement", "Imodal.C130_callback_disagreement", "Imodal.C130_resets", "Imodal.C130_numbers"], "note": "Proved for optimisers given by name or left out, for the printed numbers and for the resets. False for an optimiser given as an object, which goes on with the model it was made for, and for the callback, which never runs. The numbers are for optimisers that take miniter and for displayed models with deformation modules (C44)."},
  {"property": "C131", "status": "partial", "theorems": ["Imodal.C131_affine_partial", "Imodal.C131_similarity_partial", "Imodal.C131_image_affine_partial", "Imodal.C131_oblong_disagreement", "Imodal.C131_border_disagreement", "Imodal.C131_default_disagreement", "Imodal.C131_matched", "Imodal.C131_nearest_exists", "Imodal.C131_flat", "Imodal.C131_still", "Imodal.C131_image"], "note": "Proved for square pixels at inner pixels whose nearest point is inner, which is so for rigid motions and changes of scale if the place looked for lies among the inner pixels, and everywhere for points that have not moved. False at the border, which is not corrected, and for pixels that are not square, whose height is measured by their width. The points an image starts from are those of its pixels if the extent matches (C131_matched); with the default extent they are not (C76), and an image that is not deformed comes out with the values of its four corners only. Over the reals; a step of zero is left out."},
  {"property": "C132", "status": "partial", "theorems": ["Imodal.C132_image_partial", "Imodal.C132_grid", "Imodal.C132_nearest", "Imodal.C132_wrong_number", "Imodal.C132_linear", "Imodal.C132_start_disagreement"], "note": "Proved for given carried points that move along with the frame. False for the points an image starts from: they do not move along with the frame unless it is moved by nothing (C132_start_disagreement). Over the reals."},
  {"property": "C133", "status": "partial", "theorems": ["Imodal.C133_continuous", "Imodal.C133_bound_partial", "Imodal.C133_outside_disagreement", "Imodal.C133_volume_continuous", "Imodal.C133_volume_bound_partial"], "note": "Continuity is proved everywhere. The bound is proved for points not left of or below the frame; elsewhere the image is extrapolated and no bound holds (C133_outside_disagreement). Volumes likewise, for voxel coordinates that are not negative. Over the reals."},
  {"property": "C14", "status": "proved", "theorems": ["Imodal.C14_translation", "Imodal.C14_rotation_value", "Imodal.C14_rotation_jacobian"], "note": ""},
  {"property": "C15", "status": "proved", "theorems": ["Imodal.C15_duality", "Imodal.C15_duality_p", "Imodal.C15_duality_m", "Imodal.C15_duality_1", "Imodal.C15_symmetric", "Imodal.C15_nonneg", "Imodal.C15_available"], "note": ""},
  {"property": "C16", "status": "proved", "theorems": ["Imodal.C16_linear", "Imodal.C16_linear_pairing", "Imodal.C16_landmarks", "Imodal.C16_positions", "Imodal.C16_frame_orthonormal", "Imodal.C16_directions_dual", "Imodal.C16_inner_prod"], "note": ""},
  {"property": "C17", "status": "proved", "theorems": ["Imodal.C17_geodesic_controls_maximise", "Imodal.C17_geodesic_controls_are_controls", "Imodal.C17_hamiltonian_geodesic"], "note": "For every module, compounds included; weights and regularisations non-negative."},
  {"property": "C18", "status": "proved", "theorems": ["Imodal.C18_hamiltonian_is_cost", "Imodal.C18_hamiltonian_call"], "note": ""},
  {"property": "C19", "status": "partial", "theorems": ["Imodal.C19_nonneg", "Imodal.C19_quadratic", "Imodal.C19_fill_smul", "Imodal.C19_zero_controls", "Imodal.C19_definite", "Imodal.C19_implicit1_disagreement"], "note": "Everything holds except that an implicit module of order 1 may have non-zero controls of zero cost, however large nu is (C19_implicit1_disagreement). C19_definite asks that different controls of such a module prescribe different strains."},
  {"property": "C20", "status": "partial", "theorems": ["Imodal.C20_translations", "Imodal.C20_oriented", "Imodal.C20_implicit0", "Imodal.C20_implicit1_fill", "Imodal.C20_implicit1_geodesic_partial", "Imodal.C20_divFree", "Imodal.C20_arap", "Imodal.C20_implicit1_disagreement", "Imodal.C20_directions_disagreement"], "note": "The code violates the statement in two cases: a control without effect makes compute_geodesic_control of an implicit module of order 1 singular, and a direction manifold next to a module that needs Jacobians raises NotImplementedError."},
  {"property": "C21", "status": "proved", "theorems": ["Imodal.C21_implicit1", "Imodal.C21_implicit1_exact", "Imodal.C21_divFree", "Imodal.C21_divFree_exact", "Imodal.C21_arap", "Imodal.C21_arap_exact"], "note": "Strains in dimensions 2 and 3, where eta is defined. The docstrings of ImplicitDivFree and ImplicitARAP name the two groups of points the other way round; the theorems follow the code."},
  {"property": "C22", "status": "proved", "theorems": ["Imodal.C22_symmetric", "Imodal.C22_orthonormal", "Imodal.C22_complete", "Imodal.C22_dimensions"], "note": "eta(d) for d = 2, 3; other dimensions raise as in the code."},
  {"property": "C23", "status": "partial", "theorems": ["Imodal.C23_call", "Imodal.C23_call_members", "Imodal.C23_cost", "Imodal.C23_cost_members", "Imodal.C23_field_partial", "Imodal.C23_call_is_field", "Imodal.C23_action", "Imodal.C23_controls", "Imodal.C23_fill", "Imodal.C23_geodesic", "Imodal.C23_joint_maximum", "Imodal.C23_empty_disagreement"], "note": "Proved for every compound with members. The compound of no modules returns 0 from the call and the cost, but its field_generator() raises, so its field is not the empty sum; proved as C23_empty_disagreement."},
  {"property": "C24", "status": "partial", "theorems": ["Imodal.C24_single_partial", "Imodal.C24_sequential_partial", "Imodal.C24_nested_disagreement", "Imodal.C24_nested_misses", "Imodal.C24_restart_disagreement", "Imodal.C24_lockstep_disagreement"], "note": "One loop at a time visits everything in order, for every history in which no iteration is resumed after another has started. The object is its own iterator, so concurrent loops disturb each other: a nested loop ends the outer one after its first member, and a restart makes it endless."},
  {"property": "C25", "status": "partial", "theorems": ["Imodal.C25_after_fill", "Imodal.C25_after_geodesic", "Imodal.C25_history_partial", "Imodal.C25_no_memory", "Imodal.C25_no_memory_geodesic", "Imodal.C25_implicit1_stale", "Imodal.C25_disagreement"], "note": "Proved after every history for all modules without cached moments, and for all modules once the controls are set again. An implicit module of order 1 (and likewise the divergence free and as-rigid-as-possible ones) keeps its cached moments after its descriptors change, so its field is not the one its controls and descriptors determine until then; proved as C25_disagreement."},
  {"property": "C26", "status": "partial", "theorems": ["Imodal.C26_steps", "Imodal.C26_agrees", "Imodal.C26_no_steps"], "note": "Each state is one Euler step of the Hamiltonian system from the one before, for every module. The agreement with the solver method euler holds for every list of modules the solver path accepts; by C07 that path raises for nested compounds and for modules without coordinates, where torch_euler runs."},
  {"property": "C27", "status": "proved", "theorems": ["Imodal.C27_moments", "Imodal.C27_where", "Imodal.C27_controls"], "note": "Over the reals, for evaluation times computed exactly; floating point rounding of floor(t/(t1/it)) is not modelled."},
  {"property": "C28", "status": "partial", "theorems": ["Imodal.C28_per_step_partial", "Imodal.C28_rk4", "Imodal.C28_per_evaluation", "Imodal.C28_constant", "Imodal.C28_in_range", "Imodal.C28_learnt", "Imodal.C28_learnt_unknown", "Imodal.C28_rk4_disagreement"], "note": "One control per step: proved for euler and midpoint. With rk4 the last evaluation of each step uses the controls of the next step (C28_rk4), so a step with zero controls still moves points (C28_rk4_disagreement). One control per evaluation, shorter lists and index ranges are proved for the three methods. C28_learnt: the list a registration model builds has one entry per evaluation of its solver."},
  {"property": "C29", "status": "proved", "theorems": ["Imodal.C29_solver", "Imodal.C29_euler"], "note": "Weights and regularisation parameters must not be negative."},
  {"property": "C30", "status": "proved", "theorems": ["Imodal.C30_modules", "Imodal.C30_solver", "Imodal.C30_euler", "Imodal.C30_invariant", "Imodal.C30_smooth"], "note": "C30_modules: for modules whose parameters single out no place and are C^1, every shooting that returns keeps the total momentum. Invariance (C30_invariant) and differentiability wherever geodesic controls exist (C30_smooth) are proved, not assumed. Autograd is modelled by the partial derivatives. unrollGd_shift ties the displacement row to moving the points."},
  {"property": "C31", "status": "partial", "theorems": ["Imodal.C31_euler_partial", "Imodal.C31_solver_partial", "Imodal.C31_follows_partial", "Imodal.C31_velocity_partial", "Imodal.C31_directions_disagreement", "Imodal.C31_readers_disagreement"], "note": "Proved for silent modules without directions, and for silent modules with directions whenever no other module reads Jacobians of the dual field or the others already have directions. This condition is exact: otherwise every silent module with directions makes shooting raise (C31_readers_disagreement), as for divergence free modules (C31_directions_disagreement)."},
  {"property": "C32", "status": "proved", "theorems": ["Imodal.C32_repeatable", "Imodal.C32_no_step_disagreement"], "note": "For every history of successful and raising calls on the same model, with any fixed step solver and at least one step. With no step at all and reduce='lastcompound' the cost is read from the controls left by an earlier call (C32_no_step_disagreement)."},
  {"property": "C33", "status": "partial", "theorems": ["Imodal.C33_partial", "Imodal.C33_returns", "Imodal.C33_controls", "Imodal.C33_backward_disagreement", "Imodal.C33_backward_type_disagreement"], "note": "Proved for deformables without backward flow, all fixed step solvers and the Euler loop, with and without controls. With an image in backward mode the call raises TypeError because shoot is called without costs (C33_backward_disagreement)."},
  {"property": "C34", "status": "partial", "theorems": ["Imodal.C34_partial", "Imodal.C34_sum", "Imodal.C34_no_costs", "Imodal.C34_unknown_solver", "Imodal.C34_total_needs_controls", "Imodal.C34_unknown_disagreement"], "note": "Proved for the four documented reductions. An unknown reduction is ignored silently instead of raising (C34_unknown_disagreement)."},
  {"property": "C35", "status": "partial", "theorems": ["Imodal.C35_partial", "Imodal.C35_used", "Imodal.C35_others", "Imodal.C35_per_tensor_disagreement", "Imodal.C35_single_flag_disagreement"], "note": "Proved for one flag per module, modules and deformables that are no nested compounds. With one flag per tensor the selected tensors are not recorded for differentiation (C35_per_tensor_disagreement); a single fit_gd=True raises TypeError (C35_single_flag_disagreement)."},
  {"property": "C36", "status": "proved", "theorems": ["Imodal.C36_total", "Imodal.C36_entries", "Imodal.C36_counts", "Imodal.C36_returns", "Imodal.C36_unknown_reduction"], "note": "Over the reals. C36_entries lists every entry; C36_returns shows regularised models do return. With an unknown reduction the deformation entry is missing (C36_unknown_reduction, same cause as C34)."},
  {"property": "C37", "status": "partial", "theorems": ["Imodal.C37_value", "Imodal.C37_partial", "Imodal.C37_weights_disagreement", "Imodal.C37_null"], "note": "A compound attachment applies only its own weight; the weights of its members are ignored (C37_weights_disagreement). Proved when the members have weight one."},
  {"property": "C38", "status": "partial", "theorems": ["Imodal.C38_partial", "Imodal.C38_returns", "Imodal.C38_targets_disagreement", "Imodal.C38_template_disagreement"], "note": "Proved for as many targets as models, without template optimisation. Extra targets are ignored; template optimisation raises TypeError."},
  {"property": "C39", "status": "partial", "theorems": ["Imodal.C39_write_read_partial", "Imodal.C39_blocks", "Imodal.C39_read_write", "Imodal.C39_wrong_length", "Imodal.C39_gradient", "Imodal.C39_not_contiguous", "Imodal.C39_alias_disagreement"], "note": "Write-then-read needs that no tensor is listed twice; the negation without this is proved. Exact numbers (no float64 rounding)."},
  {"property": "C40", "status": "partial", "theorems": ["Imodal.C40_move", "Imodal.C40_returns", "Imodal.C40_no_increase_partial", "Imodal.C40_nan_never_returns", "Imodal.C40_infinite_disagreement"], "note": "Finiteness of the new cost holds when the old cost is finite; from an infinite cost the step may return an infinite cost (proved). A nan cost makes the loop run forever (proved)."},
  {"property": "C41", "status": "partial", "theorems": ["Imodal.C41_optimize", "Imodal.C41_success", "Imodal.C41_no_iteration_disagreement"], "note": "For max_iter >= 1 complete; with max_iter = 0 the code raises UnboundLocalError (proved)."},
  {"property": "C42", "status": "proved", "theorems": ["Imodal.C42_history", "Imodal.C42_lengths", "Imodal.C42_no_history"], "note": "For calls that pass argument binding (see C44) on models with deformation modules or without display; initial costs not empty."},
  {"property": "C43", "status": "partial", "theorems": ["Imodal.C43_options_partial", "Imodal.C43_unaffected_partial", "Imodal.C43_disagreement"], "note": "The code deletes three names from the caller's dictionary; the negation is proved for every dictionary holding one of them."},
  {"property": "C44", "status": "partial", "theorems": ["Imodal.C44_torch_partial", "Imodal.C44_scipy_disagreement", "Imodal.C44_default_raises", "Imodal.C44_atlas_disp"], "note": "All scipy optimisers, the default included, raise TypeError; proved. The torch ones run."},
  {"property": "C45", "status": "partial", "theorems": ["Imodal.C45_create", "Imodal.C45_list", "Imodal.C45_register_adds_one", "Imodal.C45_set_default_partial", "Imodal.C45_default_never_changes", "Imodal.C45_default_disagreement"], "note": "Setting the default has no effect in the code; proved for every history."},
  {"property": "C46", "status": "proved", "theorems": ["Imodal.C46_set", "Imodal.C46_get", "Imodal.C46_always_valid", "Imodal.C46_isValid", "Imodal.C46_field", "Imodal.C46_module", "Imodal.C46_varifold"], "note": ""},
  {"property": "C47", "status": "partial", "theorems": ["Imodal.C47_constructed_proper", "Imodal.C47_inverted_rejected", "Imodal.C47_tuple_roundtrip", "Imodal.C47_dict_roundtrip", "Imodal.C47_dict_truncates", "Imodal.C47_build_smallest", "Imodal.C47_is_inside"], "note": "Everything holds in dimensions 1 to 3. From four dimensions on the dictionary form loses axes (C47_dict_truncates)."},
  {"property": "C48", "status": "partial", "theorems": ["Imodal.C48_scale_sides", "Imodal.C48_scale_uniform", "Imodal.C48_scale_proper", "Imodal.C48_squared_partial", "Imodal.C48_squared_flat_raises", "Imodal.C48_copy_vs_in_place", "Imodal.C48_failure_keeps", "Imodal.C48_scale_object", "Imodal.C48_negative_scale_improper"], "note": "Scaling fully proved. Squaring proved for positive sides; a zero side raises ZeroDivisionError (C48_squared_flat_raises)."},
  {"property": "C49", "status": "proved", "theorems": ["Imodal.C49_fill_count", "Imodal.C49_fill_count_corners", "Imodal.C49_fill_spacing", "Imodal.C49_zero_spacing", "Imodal.C49_fill_random"], "note": "Exact arithmetic; linspace and arange by their exact formulas."},
  {"property": "C50", "status": "proved", "theorems": ["Imodal.C50_vec2grid_grid2vec", "Imodal.C50_row_major", "Imodal.C50_sizes_rejected"], "note": ""},
  {"property": "C51", "status": "proved", "theorems": ["Imodal.C51_pixels_inverse", "Imodal.C51_corners", "Imodal.C51_indices_in_frame", "Imodal.C51_nel_inverse", "Imodal.C51_degenerate_raises"], "note": ""},
  {"property": "C52", "status": "partial", "theorems": ["Imodal.C52_rot2d_rotation", "Imodal.C52_rot3d_rotation", "Imodal.C52_angles_add", "Imodal.C52_batched_xz_partial", "Imodal.C52_batched_opposite", "Imodal.C52_batched_agree_iff", "Imodal.C52_batched_rotations"], "note": "rot2d_vec and rot3d_y_vec return the rotation by the opposite angle."},
  {"property": "C53", "status": "partial", "theorems": ["Imodal.C53_rigid_isometry", "Imodal.C53_rigid_special", "Imodal.C53_extent_partial", "Imodal.C53_extent_wrong"], "note": "extent_transformation4d is right only where scale is one or the target's lower bound is zero."},
  {"property": "C54", "status": "partial", "theorems": ["Imodal.C54_partial", "Imodal.C54_disagreement", "Imodal.C54_extrapolates_disagreement", "Imodal.C54_volume", "Imodal.C54_count"], "note": "Pixel positions give pixel values, constants stay constant, and values stay in the range of the image when no pixel coordinate is negative. Points left of or below the frame are extrapolated, so the result can leave the range (disagreement)."},
  {"property": "C55", "status": "partial", "theorems": ["Imodal.C55_partial", "Imodal.C55_disagreement", "Imodal.C55_line_disagreement"], "note": "Square images are reproduced for every bitmap and frame. For other shapes the rows and columns of the pixel frame are exchanged and some bitmap is changed; images with one row or column cannot be constructed."},
  {"property": "C56", "status": "proved", "theorems": ["Imodal.C56_distance", "Imodal.C56_disc", "Imodal.C56_segment", "Imodal.C56_outline", "Imodal.C56_side", "Imodal.C56_convex", "Imodal.C56_convex_convex", "Imodal.C56_missing"], "note": "Delaunay branch for three columns not modelled"},
  {"property": "C57", "status": "proved", "theorems": ["Imodal.C57_start", "Imodal.C57_translation", "Imodal.C57_reverse", "Imodal.C57_winding_number", "Imodal.C57_side", "Imodal.C57_area", "Imodal.C57_missing"], "note": "also: equals the sum of the angles in full turns"},
  {"property": "C58", "status": "proved", "theorems": ["Imodal.C58_close", "Imodal.C58_close_again", "Imodal.C58_closed_iff", "Imodal.C58_empty", "Imodal.C58_fill_uniform", "Imodal.C58_density", "Imodal.C58_fill_random", "Imodal.C58_random_density"], "note": "for areas that answer a predicate for every row; random numbers are an arbitrary stream in [0, 1)"},
  {"property": "C59", "status": "proved", "theorems": ["Imodal.C59_rectangle", "Imodal.C59_rectangle_dim", "Imodal.C59_square", "Imodal.C59_circle", "Imodal.C59_disc"], "note": "exact arithmetic"},
  {"property": "C60", "status": "proved", "theorems": ["Imodal.C60_convex", "Imodal.C60_box", "Imodal.C60_constant", "Imodal.C60_gaussian", "Imodal.C60_translation"], "note": ""},
  {"property": "C61", "status": "partial", "theorems": ["Imodal.C61_partial", "Imodal.C61_curves", "Imodal.C61_meshes", "Imodal.C61_mesh_invariance", "Imodal.C61_backends", "Imodal.C61_degenerate_disagreement", "Imodal.C61_three_disagreement", "Imodal.C61_keops_disagreement"], "note": "Curves: everything. Surfaces: everything for meshes without degenerate triangles; a degenerate triangle gives NaN. With exactly three faces the cross product is taken along the wrong axis, so reversing a single face changes the result. Curves with the KeOps backend are not implemented."},
  {"property": "C62", "status": "partial", "theorems": ["Imodal.C62_smooth_partial", "Imodal.C62_partial", "Imodal.C62_pointwise", "Imodal.C62_triangle", "Imodal.C62_l2", "Imodal.C62_l2_parallelogram", "Imodal.C62_broadcast_disagreement", "Imodal.C62_radon_disagreement", "Imodal.C62_smooth_disagreement", "Imodal.C62_fft_disagreement", "Imodal.C62_scaled", "Imodal.C62_scaled_separates", "Imodal.C62_scaled_disagreement", "Imodal.C62_scale_disagreement", "Imodal.C62_rejects"], "note": "Proved for shapes with the same number of points and for tensors of the same shape without transform. A single point is broadcast; the radon transform raises; the smooth transform does not separate images. With scaling to a given size the claim holds for sizes at least those of the images; scaling down does not separate images. The fft transform and scaling without settings raise."},
  {"property": "C63", "status": "partial", "theorems": ["Imodal.C63_partial", "Imodal.C63_disagreement", "Imodal.C63_mask"], "note": "mask_to_indices is proved for all shapes. sample_from_greyscale raises IndexError for every image of more than one pixel."},
  {"property": "C64", "status": "proved", "theorems": ["Imodal.C64_flatten", "Imodal.C64_flatten_accumulator", "Imodal.C64_flatten_append", "Imodal.C64_shared", "Imodal.C64_shared_raises", "Imodal.C64_append", "Imodal.C64_append_keys"], "note": "Strings inside nested lists are outside the model."},
  {"property": "C65", "status": "partial", "theorems": ["Imodal.C65_partial", "Imodal.C65_disagreement", "Imodal.C65_points_csv_disagreement", "Imodal.C65_mesh_disagreement"], "note": "The whole last path component is compared instead of the extension, so every ordinary file name is rejected. Rejection of unknown extensions is proved."},
  {"property": "C66", "status": "partial", "theorems": ["Imodal.C66_partial", "Imodal.C66_first_disagreement", "Imodal.C66_start_disagreement", "Imodal.C66_segment_disagreement"], "note": "the code negates the first point and raises for segments; the number of points is proved"},
  {"property": "C67", "status": "partial", "theorems": ["Imodal.C67_partial", "Imodal.C67_disagreement", "Imodal.C67_moves_disagreement", "Imodal.C67_outside_disagreement", "Imodal.C67_mesh", "Imodal.C67_three_disagreement"], "note": "the code multiplies by 1/2 instead of 1/3; normals and areas proved, except that meshes with exactly three triangles get wrong normals (cross product along the wrong axis)"},
  {"property": "C68", "status": "partial", "theorems": ["Imodal.C68_spawn_partial", "Imodal.C68_call_disagreement"], "note": "spawn is complete; calling the factory object always raises NameError (proved)."},
  {"property": "C69", "status": "proved", "theorems": ["Imodal.C69_solver", "Imodal.C69_euler", "Imodal.C69_zero_time", "Imodal.C69_controls", "Imodal.C69_euler_controls"], "note": "Over the reals. For the solver path the members must not be nested compounds and must have a coordinate (see C07)."},
  {"property": "C70", "status": "proved", "theorems": ["Imodal.C70_velocity", "Imodal.C70_euler_step", "Imodal.C70_shoot", "Imodal.C70_rhs", "Imodal.C70_callback"], "note": "Automatic differentiation is modelled as the partial derivative of the modelled Hamiltonian."},
  {"property": "C71", "status": "proved", "theorems": ["Imodal.C71_solver", "Imodal.C71_euler"], "note": "Over the reals. The recorded controls replayed through the controls argument give the same descriptors; the momenta are not moved by that path."},
  {"property": "C72", "status": "partial", "theorems": ["Imodal.C72_partial", "Imodal.C72_pickle", "Imodal.C72_csv", "Imodal.C72_container", "Imodal.C72_empty_disagreement", "Imodal.C72_csv_disagreement"], "note": "Pickle: all non-empty point sets. Text: at least two points of dimension at least two; otherwise loading raises IndexError."},
  {"property": "C73", "status": "proved", "theorems": ["Imodal.C73_step_ends", "Imodal.C73_gradient_needed"], "note": "For every real inner product space and every finite cost with a true gradient. A direction that is not a descent direction makes the search endless."},
  {"property": "C74", "status": "partial", "theorems": ["Imodal.C74_scaling_centre", "Imodal.C74_scaling_outward", "Imodal.C74_rotation_centre", "Imodal.C74_rotation_turns", "Imodal.C74_rotation3_centre", "Imodal.C74_rotation3_turns", "Imodal.C74_rotation3_orthogonal", "Imodal.C74_cost2", "Imodal.C74_cost3", "Imodal.C74_scaling_dimension_disagreement", "Imodal.C74_scaling_plane"], "note": "Everything in the plane; rotation in space for points of the plane through the centre orthogonal to the axis. A local scaling in dimension three or more is built but raises when its field is asked for."},
  {"property": "C75", "status": "partial", "theorems": ["Imodal.C75_partial", "Imodal.C75_indices", "Imodal.C75_disagreement"], "note": "Holds when the second function is given the inverse matrix. With the same matrix the round trip is the identity exactly when the matrix is its own inverse."},
  {"property": "C76", "status": "partial", "theorems": ["Imodal.C76_points_disagreement", "Imodal.C76_default_disagreement", "Imodal.C76_square_partial", "Imodal.C76_weights", "Imodal.C76_deformed_weights", "Imodal.C76_output"], "note": "Weights and rejection hold for all images with non-zero total. The points are the pixel positions exactly when the frame is [0,h-1]×[0,w-1]."},
  {"property": "C77", "status": "proved", "theorems": ["Imodal.C77_field", "Imodal.C77_cost", "Imodal.C77_action", "Imodal.C77_fill", "Imodal.C77_geodesic", "Imodal.C77_hamiltonian", "Imodal.C77_reduced"], "note": "Modules whose parameters single out a place or a direction are excluded by a hypothesis: the matrix of a linear deformation must commute with the rotation, the functions of a constrained translation must move with the descriptors."},
  {"property": "C78", "status": "proved", "theorems": ["Imodal.C78_all", "Imodal.C78_momenta", "Imodal.C78_controls", "Imodal.C78_euler", "Imodal.C78_translation", "Imodal.C78_shift"], "note": "C78_momenta: every rigid motion and every solver, for modules with C^1 parameters (the gradients turn because the Hamiltonian is proved differentiable wherever controls exist). C78_controls: given controls, ODE solvers, no smoothness. C78_euler: torch_euler with given controls. C78_all: all of them in one statement. C78_translation: translations without smoothness."},
  {"property": "C79", "status": "proved", "theorems": ["Imodal.C79_nearby", "Imodal.C79_smooth", "Imodal.C79_gradient", "Imodal.C79_regular"], "note": "Autograd is modelled by the partial derivatives; C79_gradient shows that they form the total derivative. Modules that read Jacobians beside points with directions raise and are excluded by the hypothesis."},
  {"property": "C80", "status": "proved", "theorems": ["Imodal.C80_converges", "Imodal.C80_euler", "Imodal.C80_exists", "Imodal.C80_short"], "note": "Over the reals. Order one for all methods; the higher orders of midpoint and rk4 are C102. C80_exists: the hypotheses hold for some time wherever geodesic controls exist."},
  {"property": "C81", "status": "proved", "theorems": ["Imodal.C81_energy", "Imodal.C81_angular", "Imodal.C81_energy_drift", "Imodal.C81_angular_drift", "Imodal.C81_costs"], "note": "Over the reals. Linear momentum is kept exactly (C30). Costs recorded by rk4 belong to other points of the step (C27) and are not claimed."},
  {"property": "C82", "status": "proved", "theorems": ["Imodal.C82_module", "Imodal.C82_geodesic", "Imodal.C82_fill", "Imodal.C82_shoot", "Imodal.C82_deformed", "Imodal.C82_registration", "Imodal.C82_evaluate", "Imodal.C82_atlas"], "note": "Over the reals; the KeOps solver is taken to return the exact solution, and for a singular matrix it is only claimed that torch raises. Orders of derivatives above one are missing in KeOps (C12)."},
  {"property": "C83", "status": "proved", "theorems": ["Imodal.C83_translations_values", "Imodal.C83_implicit0_values", "Imodal.C83_implicit0", "Imodal.C83_implicit0_singular", "Imodal.C83_implicit1", "Imodal.C83_implicit1_geodesic", "Imodal.C83_implicit1_singular", "Imodal.C83_divFree", "Imodal.C83_divFree_singular", "Imodal.C83_arap", "Imodal.C83_arap_singular"], "note": "Over the reals."},
  {"property": "C84", "status": "partial", "theorems": ["Imodal.C84_partial", "Imodal.C84_shared_disagreement", "Imodal.C84_single_flag_disagreement", "Imodal.C84_per_tensor_disagreement", "Imodal.C84_modes", "Imodal.C84_sigma", "Imodal.C84_htgd", "Imodal.C84_attachments"], "note": "The flagged descriptors given to the optimiser are those of the first subject only and no memory is shared, so no update of the parameters changes the descriptors of another subject (comment at atlas.py 129 says they are shared). A single boolean raises TypeError; one flag per tensor selects all tensors and records none."},
  {"property": "C85", "status": "partial", "theorems": ["Imodal.C85_deformed", "Imodal.C85_returns", "Imodal.C85_attach", "Imodal.C85_repeatable", "Imodal.C85_template", "Imodal.C85_intermediates", "Imodal.C85_parallel_disagreement", "Imodal.C85_template_disagreement"], "note": "Proved for the sequential mode without optimised template. The mode 'parallel' raises TypeError (its function needs four arguments and gets three), and compute_template calls shoot without its argument costs, which raises TypeError too."},
  {"property": "C86", "status": "partial", "theorems": ["Imodal.C86_partial", "Imodal.C86_new", "Imodal.C86_ready", "Imodal.C86_deform", "Imodal.C86_evaluate", "Imodal.C86_best", "Imodal.C86_points", "Imodal.C86_curves", "Imodal.C86_meshes", "Imodal.C86_compound", "Imodal.C86_carries_points", "Imodal.C86_carries_mesh", "Imodal.C86_three_disagreement", "Imodal.C86_ones_disagreement"], "note": "Every solver, from momenta and with learnable controls. Not true, and therefore left out: meshes with exactly three faces, since torch.cross then takes the product over the faces, and turning the mesh changes the attachment; initial controls of ones, which single out a direction."},
  {"property": "C87", "status": "partial", "theorems": ["Imodal.C87_lattice", "Imodal.C87_togrid", "Imodal.C87_geometry", "Imodal.C87_deformed_partial", "Imodal.C87_rest_partial", "Imodal.C87_form_disagreement", "Imodal.C87_long_disagreement"], "note": "The lattice, its order, the flow of its nodes and the rest state are proved. Not true: the deformed geometry is a flat tensor of points while geometry is a tuple of grids; a resolution with too many entries is accepted and reading the geometry raises later. A resolution with too few entries is not modelled (manifolds do not check shapes)."},
  {"property": "C88", "status": "proved", "theorems": ["Imodal.C88_scale", "Imodal.C88_states", "Imodal.C88_unit_time", "Imodal.C88_backward", "Imodal.C88_hamiltonian"], "note": "Over the reals, for the fixed-step solvers of torchdiffeq. 'torch_euler' always integrates up to 1, so the claim does not apply to it."},
  {"property": "C89", "status": "proved", "theorems": ["Imodal.C89_trajectory", "Imodal.C89_costs", "Imodal.C89_states"], "note": "Over the reals, for the fixed-step solvers of torchdiffeq. 'torch_euler' always integrates up to 1 with steps 1/it, so it cannot be resumed. With rk4 the cost of a step is recorded at the last evaluation of the step before it, so the costs of the parts are recorded at other points; with rk4 and one control per step the last evaluation of a step uses the control of the next step (C28), so this case is not included."},
  {"property": "C90", "status": "proved", "theorems": ["Imodal.C90_shoot", "Imodal.C90_deformed", "Imodal.C90_start", "Imodal.C90_evaluate", "Imodal.C90_given", "Imodal.C90_steps", "Imodal.C90_evaluate_steps", "Imodal.C90_returns", "Imodal.C90_start_returns"], "note": "Over the reals. The reported deformation cost is zero for the costs 'sum', 'totalcompound' and, with at least one step, 'lastcompound'; the cost named 'previous' is computed from momenta and not from the controls, so it is left out. Evaluating is shown to return for the cost 'sum', the method the model was made for, deformables without backward flow and attachments that return."},
  {"property": "C91", "status": "partial", "theorems": ["Imodal.C91_field", "Imodal.C91_geodesic", "Imodal.C91_still", "Imodal.C91_bound", "Imodal.C91_tight", "Imodal.C91_curve", "Imodal.C91_limit", "Imodal.C91_rest_momenta", "Imodal.C91_rest_controls_partial", "Imodal.C91_rest_partial", "Imodal.C91_free_disagreement"], "note": "Over the reals. The bound on the displacement by the summed costs is proved for Euler's method. Along an exact geodesic the initial energy bounds it (C91_curve), so for euler, midpoint and rk4 from momenta the first recorded cost does up to a constant over the number of steps to the order of the method (C91_limit). Zero cost means no motion for euler, midpoint and rk4 from momenta, with constant controls and with one control per step. Not true: with one control per evaluation (what a RegistrationModel learns for midpoint and rk4) the costs are taken at some of the evaluations only, so the midpoint method moves a point by any distance at the reported cost zero."},
  {"property": "C92", "status": "proved", "theorems": ["Imodal.C92_module", "Imodal.C92_manifold", "Imodal.C92_fill", "Imodal.C92_geodesic", "Imodal.C92_shoot", "Imodal.C92_deformed", "Imodal.C92_registration", "Imodal.C92_evaluate"], "note": "Over the reals: the order of additions does not count. The functions of a module of constrained translations are told the points in their old order. For a registration the kept initial manifolds are those of the modules (Kept; true of every model that was built)."},
  {"property": "C93", "status": "proved", "theorems": ["Imodal.C93_module", "Imodal.C93_hamiltonian", "Imodal.C93_fill", "Imodal.C93_shoot", "Imodal.C93_deformed", "Imodal.C93_registration", "Imodal.C93_evaluate"], "note": "Over the reals: the order of additions does not count. For a registration the kept initial manifolds are those of the modules (Kept; true of every model that was built). The error raised may be another one, since another module may be the first to fail."},
  {"property": "C94", "status": "partial", "theorems": ["Imodal.C94_partial", "Imodal.C94_controls", "Imodal.C94_regular", "Imodal.C94_learned", "Imodal.C94_pointwise", "Imodal.C94_pointwise_corner"], "note": "Over the reals, for the solvers with fixed steps, with momenta (C94_partial, C94_regular) and with learned controls (C94_controls, C94_learned). Registrations that deform backwards always raise, so nothing is claimed about them. Missing: reduction by the last compound (its cost is the one of the modules as the last evaluation left them, moved to the final descriptors, which this proof does not follow)."},
  {"property": "C95", "status": "proved", "theorems": ["Imodal.C95_fit", "Imodal.C95_fit_converges", "Imodal.C95_start", "Imodal.C95_run", "Imodal.C95_converges"], "note": "Over the reals, with reduction 'sum', solvers with fixed steps, geodesic controls, and exact automatic differentiation: the gradient given to the optimiser is made of the partial derivatives (partials). Regular modules are regularised translations, divergence-free and as-rigid-as-possible modules, global translations, linear and silent modules, and compounds of them."},
  {"property": "C96", "status": "partial", "theorems": ["Imodal.C96_partial", "Imodal.C96_disagreement", "Imodal.C96_new", "Imodal.C96_builds", "Imodal.C96_zero", "Imodal.C96_zero_total", "Imodal.C96_forgets", "Imodal.C96_repaired"], "note": "The code disagrees for new implicit modules of order 1, divergence-free and as-rigid-as-possible modules, and compounds containing one: they have no moments yet, so cost and field raise AttributeError (C96_disagreement). They are at rest after fill_controls_zero (C96_repaired). Labels, devices, dtypes and the shape [1] that fill_controls_zero gives to the control of a constrained translation are not modelled."},
  {"property": "C97", "status": "partial", "theorems": ["Imodal.C97_labels_partial", "Imodal.C97_params_partial", "Imodal.C97_prints", "Imodal.C97_members", "Imodal.C97_kinds", "Imodal.C97_position", "Imodal.C97_names", "Imodal.C97_distinct", "Imodal.C97_dim", "Imodal.C97_move", "Imodal.C97_registration", "Imodal.C97_disagreement", "Imodal.C97_params_disagreement", "Imodal.C97_names_disagreement", "Imodal.C97_registration_disagreement"], "note": "The code disagrees: linear and as-rigid-as-possible modules and compounds labelled by a list cannot be printed, a divergence-free module shows neither its label nor its parameters, no compound can both be printed and have members found under names of two or more letters, and a registration prints modules[1:], which is right for one deformable only. C97_prints says exactly which modules can be printed. str of a number is a parameter."},
  {"property": "C98", "status": "proved", "theorems": ["Imodal.C98_rigid", "Imodal.C98_points", "Imodal.C98_modules", "Imodal.C98_case"], "note": "Over the reals, with reduction 'sum', solvers with fixed steps, geodesic controls and exact automatic differentiation, as in C95. Only momenta are fitted; fitting descriptors as well is not covered. Rigid motions need modules and attachments that single out no direction (Ready, C86). C98_case is a concrete registration meeting all hypotheses of the three theorems."},
  {"property": "C99", "status": "partial", "theorems": ["Imodal.C99_to_device_partial", "Imodal.C99_controls_disagreement", "Imodal.C99_others", "Imodal.C99_compound_disagreement", "Imodal.C99_fill_init", "Imodal.C99_fill_init_disagreement"], "note": "The code disagrees: learned controls and other parameters are not moved (C99_controls_disagreement, C99_others), a compound among the modules makes the call raise AttributeError after the modules before it were moved (C99_compound_disagreement), and a replaced initial state is used as it is, so its momenta are recorded only if the caller recorded them (C99_fill_init_disagreement). Everything else of the statement is proved for models with one flag per module in fit_gd. Tensors outside the manifolds, as the controls a module holds, triangles and bitmaps, are not modelled."}
]}
