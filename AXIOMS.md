# Axioms behind each claimed theorem

Output of `#print axioms` for every theorem named in MANIFEST.json, grouped.
The three axioms are Lean's own; nothing else occurs.

## none (2 theorems)

`Lacuna.prune_coo_negative`, `Lacuna.stubs_faithful`

## `propext` (52 theorems)

`Lacuna.add_csr_panics_iff`, `Lacuna.add_csc_panics_iff`, `Lacuna.sub_csr_panics_iff`, `Lacuna.sub_csc_panics_iff`, `Lacuna.hadamard_csr_panics_iff`, `Lacuna.hadamard_csc_panics_iff`, `Lacuna.div_csr_panics_iff`, `Lacuna.div_csc_panics_iff`, `Lacuna.floordiv_csr_panics_iff`, `Lacuna.floordiv_csc_panics_iff`, `Lacuna.rem_csr_panics_iff`, `Lacuna.rem_csc_panics_iff`, `Lacuna.pow_csr_panics_iff`, `Lacuna.pow_csc_panics_iff`, `Lacuna.prune_csr_negative`, `Lacuna.prune_csc_negative`, `Lacuna.prune_coond_negative`, `Lacuna.prune_nan_inconsistent`, `Lacuna.add_coond_shape_panics`, `Lacuna.noOverflow_of_pos`, `Lacuna.csr_to_coo_exists`, `Lacuna.csc_to_coo_exists`, `Lacuna.transpose_coo_correct`, `Lacuna.transpose_duplicates_lost`, `Lacuna.unfold_mode`, `Lacuna.spmv_csr_rejects`, `Lacuna.all_any_coond_duplicates_wrong`, `Lacuna.toarray_csr_duplicates_differ`, `Lacuna.matmul_rejects`, `Lacuna.py_mean_empty`, `Lacuna.count_nonzero_coo_duplicates`, `Lacuna.spmv_csr_unchecked_ub`, `Lacuna.csr_to_csc_overlap_ub`, `Lacuna.csc_to_csr_overlap_ub`, `Lacuna.unfold_short_ub`, `Lacuna.py_new_invalid`, `Lacuna.row_logic_overlap_ub`, `Lacuna.py_count_wrong`, `Lacuna.named_method_unknown`, `Lacuna.stubs_forward`, `Lacuna.dispatch1_leaks`, `Lacuna.dispatch1_refuses`, `Lacuna.dispatch1_dense`, `Lacuna.dispatch2_numpy`, `Lacuna.public_names`, `Lacuna.promote_unknown`, `Lacuna.promote_comm`, `Lacuna.promote_unsigned`, `Lacuna.promote_int32_float32`, `Lacuna.devices`, `Lacuna.vecdotNd_int_raises`, `Lacuna.PySp.new_handleOk`

## `Quot.sound`, `propext` (112 theorems)

`Lacuna.coond_fromParts_iff`, `Lacuna.add_fill_terminates`, `Lacuna.sub_fill_terminates`, `Lacuna.inter_fill_terminates`, `Lacuna.add_count_eq_fill`, `Lacuna.sub_count_eq_fill`, `Lacuna.hadamard_count_eq_fill`, `Lacuna.div_count_eq_fill`, `Lacuna.floordiv_count_eq_fill`, `Lacuna.rem_count_eq_fill`, `Lacuna.pow_count_eq_fill`, `Lacuna.fill_positions_exact`, `Lacuna.any_of_eval`, `Lacuna.threads_product`, `Lacuna.borrow_race`, `Lacuna.write_beside`, `Lacuna.gil_jobs`, `Lacuna.mulScalar_data`, `Lacuna.mulScalar_csr_correct`, `Lacuna.mulScalar_csc_correct`, `Lacuna.mulScalar_coo_correct`, `Lacuna.mulScalar_coond_correct`, `Lacuna.abs_coo_duplicates_wrong`, `Lacuna.sign_coo_duplicates_wrong`, `Lacuna.prune_coo_correct`, `Lacuna.prune_csr_runs`, `Lacuna.prune_csc_runs`, `Lacuna.add_coond_last_cell_lost`, `Lacuna.linearise_bijection`, `Lacuna.broadcast_zero_extent`, `Lacuna.broadcast_keeps_zeros`, `Lacuna.reshape_rejects`, `Lacuna.reshape_runs`, `Lacuna.reshape_index_wraps`, `Lacuna.unfold_index_wraps`, `Lacuna.spmv_nd_rejects`, `Lacuna.spmm_rejects`, `Lacuna.spmm_nd_no_columns`, `Lacuna.spmm_csr_no_columns_panics`, `Lacuna.vecdot_csc_exact`, `Lacuna.sum_runs`, `Lacuna.ranges_visit`, `Lacuna.ext_runs`, `Lacuna.minmax_no_cells`, `Lacuna.min_nan_is_infinity`, `Lacuna.minmax_coo_duplicates_wrong`, `Lacuna.prod_runs`, `Lacuna.prod_coond_runs`, `Lacuna.var_runs`, `Lacuna.var_coond_runs`, `Lacuna.cumprod_nan_lost`, `Lacuna.zeros_csr_correct`, `Lacuna.zeros_csc_correct`, `Lacuna.zeros_coo_correct`, `Lacuna.eye_eq_diag`, `Lacuna.getrow_csr_rejects`, `Lacuna.getrow_csr_minus_one`, `Lacuna.getrow_csr_negative`, `Lacuna.getitem_csr_unsorted_wrong`, `Lacuna.pySlice_doc`, `Lacuna.assignAt_value`, `Lacuna.matmul_csr_empty_panics`, `Lacuna.mean_coond_runs`, `Lacuna.add_csr_unchecked_ub`, `Lacuna.csc_checked_ub`, `Lacuna.csc_checked_ub_debug`, `Lacuna.jump_csr_raises`, `Lacuna.csr_to_csc_ptr_wide`, `Lacuna.csc_to_csr_ptr_tall`, `Lacuna.csr_to_coo_ub`, `Lacuna.csc_to_coo_past_end`, `Lacuna.transpose_csr_ptr_wide`, `Lacuna.reshape_size_debug`, `Lacuna.cum_axis1_big`, `Lacuna.cum_size_debug`, `Lacuna.spmm_ptr_rejects`, `Lacuna.spmm_ptr_no_columns`, `Lacuna.nd_shape_mismatch_panics`, `Lacuna.add_nd_last_cell_panics`, `Lacuna.py_tensordot_ignores_axes`, `Lacuna.py_tensordot_nd_negative`, `Lacuna.py_nd_unsupported`, `Lacuna.py_linalg_sparse_right`, `Lacuna.index_write_ub_debug`, `Lacuna.operator_obj_error`, `Lacuna.operator_obj_ok`, `Lacuna.operator_num_ok`, `Lacuna.operator_num_missing`, `Lacuna.operator_str_bad`, `Lacuna.operator_str`, `Lacuna.left_operator`, `Lacuna.operator_mul_order`, `Lacuna.named_method_known`, `Lacuna.guard_passes_iff`, `Lacuna.stub_sparse`, `Lacuna.stub_dense`, `Lacuna.capabilities_exact`, `Lacuna.create_device`, `Lacuna.threads_after`, `Lacuna.matmul_layout`, `Lacuna.tensordot_int_raises`, `Lacuna.tensordot_strided_raises`, `Lacuna.tensordot_layout_safe`, `Lacuna.vecdot_layout`, `Lacuna.vecdot_layout_safe`, `Lacuna.tensordotNd_layout`, `Lacuna.tensordotNd_layout_safe`, `Lacuna.vecdotNd_layout`, `Lacuna.vecdotNd_layout_safe`, `Lacuna.new_layout`, `Lacuna.newNd_matrix_indices`, `Lacuna.newNd_layout`

## `Classical.choice`, `Quot.sound`, `propext` (891 theorems)

`Lacuna.csr_fromParts_iff`, `Lacuna.csc_fromParts_iff`, `Lacuna.coo_fromParts_iff`, `Lacuna.add_csr_correct`, `Lacuna.add_csc_correct`, `Lacuna.add_csr_stored`, `Lacuna.add_csc_stored`, `Lacuna.sub_csr_correct`, `Lacuna.sub_csc_correct`, `Lacuna.sub_csr_stored`, `Lacuna.sub_csc_stored`, `Lacuna.sub_self_empty`, `Lacuna.sub_self_empty_csc`, `Lacuna.hadamard_csr_correct`, `Lacuna.hadamard_csc_correct`, `Lacuna.inter_csr_stored`, `Lacuna.inter_csc_stored`, `Lacuna.add_csr_schedule_indep`, `Lacuna.add_csc_schedule_indep`, `Lacuna.sub_csr_schedule_indep`, `Lacuna.sub_csc_schedule_indep`, `Lacuna.hadamard_csr_schedule_indep`, `Lacuna.hadamard_csc_schedule_indep`, `Lacuna.div_csr_schedule_indep`, `Lacuna.div_csc_schedule_indep`, `Lacuna.floordiv_csr_schedule_indep`, `Lacuna.floordiv_csc_schedule_indep`, `Lacuna.rem_csr_schedule_indep`, `Lacuna.rem_csc_schedule_indep`, `Lacuna.pow_csr_schedule_indep`, `Lacuna.pow_csc_schedule_indep`, `Lacuna.binCsr_runs`, `Lacuna.binCsc_runs`, `Lacuna.div_csr_stored`, `Lacuna.div_csc_stored`, `Lacuna.div_csr_correct`, `Lacuna.div_csc_correct`, `Lacuna.elems_sum_fn`, `Lacuna.elems_mean_fn`, `Lacuna.whole_sum_fn`, `Lacuna.whole_mean_fn`, `Lacuna.mean_axis_not_correct`, `Lacuna.any_sound`, `Lacuna.any_safe`, `Lacuna.any_exists`, `Lacuna.any_reproducible`, `Lacuna.any_bits`, `Lacuna.any_correct`, `Lacuna.any_distinct`, `Lacuna.any_more`, `Lacuna.threads_valid`, `Lacuna.threads_safe`, `Lacuna.threads_total`, `Lacuna.threads_atomic`, `Lacuna.threads_value`, `Lacuna.threads_value_nd`, `Lacuna.borrow_stable`, `Lacuna.product_races`, `Lacuna.product_races_nd`, `Lacuna.session_threads`, `Lacuna.tensordot_race`, `Lacuna.matmul_no_race`, `Lacuna.rebind_valid`, `Lacuna.rebind_total`, `Lacuna.rebind_made`, `Lacuna.rebind_attr`, `Lacuna.rebind_data`, `Lacuna.rebind_unshares`, `Lacuna.rebind_frozen`, `Lacuna.rebind_ask`, `Lacuna.rebind_stale`, `Lacuna.rebind_index_write`, `Lacuna.rebind_length_raises`, `Lacuna.rebind_shape_at`, `Lacuna.rebind_shape_ub`, `Lacuna.rebind_shape_ub_csc`, `Lacuna.rebind_shape_ub_coo`, `Lacuna.rebind_indptr_ub`, `Lacuna.gil_valid`, `Lacuna.gil_safe`, `Lacuna.gil_total`, `Lacuna.gil_atomic`, `Lacuna.gil_value`, `Lacuna.gil_finish`, `Lacuna.gil_drain`, `Lacuna.gil_session`, `Lacuna.gil_threads`, `Lacuna.floordiv_csr_stored`, `Lacuna.floordiv_csc_stored`, `Lacuna.rem_csr_stored`, `Lacuna.rem_csc_stored`, `Lacuna.floordiv_rem_consistent`, `Lacuna.floordiv_rem_consistent_csc`, `Lacuna.pow_csr_stored`, `Lacuna.pow_csc_stored`, `Lacuna.abs_csr_correct`, `Lacuna.abs_csc_correct`, `Lacuna.abs_coo_correct`, `Lacuna.abs_coond_correct`, `Lacuna.sign_csr_correct`, `Lacuna.sign_csc_correct`, `Lacuna.sign_coo_correct`, `Lacuna.sign_coond_correct`, `Lacuna.csr_canonical`, `Lacuna.csc_canonical`, `Lacuna.add_csr_comm`, `Lacuna.add_csr_assoc`, `Lacuna.hadamard_csr_comm`, `Lacuna.hadamard_add_distrib`, `Lacuna.prune_csr_correct`, `Lacuna.prune_csc_correct`, `Lacuna.prune_coond_correct`, `Lacuna.prune_csr_deterministic`, `Lacuna.prune_csc_deterministic`, `Lacuna.eliminate_zeros_csr_correct`, `Lacuna.eliminate_zeros_csc_correct`, `Lacuna.eliminate_zeros_coo_correct`, `Lacuna.eliminate_zeros_coond_correct`, `Lacuna.HMap.hashmap_correct`, `Lacuna.HMap.hashmap_drain_correct`, `Lacuna.add_coond_correct`, `Lacuna.sub_coond_correct`, `Lacuna.hadamard_coond_correct`, `Lacuna.unionNd_spec`, `Lacuna.hadamard_coond_spec`, `Lacuna.broadcast_mul_correct`, `Lacuna.broadcast_mul_incompatible`, `Lacuna.isBroadcast_iff`, `Lacuna.reshape_correct`, `Lacuna.reshape_val`, `Lacuna.reshape_round_trip`, `Lacuna.permute_correct`, `Lacuna.permute_inverse`, `Lacuna.permute_returns_iff`, `Lacuna.reduce_sum_correct`, `Lacuna.reduce_sum_spec`, `Lacuna.reduce_sum_rejects`, `Lacuna.reduce_mean_correct`, `Lacuna.coo_to_csr_exact`, `Lacuna.coo_to_csr_correct`, `Lacuna.coo_to_csr_sort_indep`, `Lacuna.coo_to_csr_nodup`, `Lacuna.coo_to_csc_sort_indep`, `Lacuna.coo_to_csc_nodup`, `Lacuna.coo_to_csc_exact`, `Lacuna.coo_to_csc_correct`, `Lacuna.csr_to_coo_correct`, `Lacuna.csc_to_coo_correct`, `Lacuna.csr_coo_csr`, `Lacuna.csc_coo_csc`, `Lacuna.csr_to_csc_correct`, `Lacuna.csc_to_csr_correct`, `Lacuna.csr_to_csc_slots`, `Lacuna.csc_to_csr_slots`, `Lacuna.csr_to_csc_sequential_wf`, `Lacuna.csc_to_csr_sequential_wf`, `Lacuna.csr_to_csc_sorted_unique`, `Lacuna.csr_csc_csr_stored`, `Lacuna.csr_to_csc_unsorted`, `Lacuna.csr_to_csc_then_multiply_wrong`, `Lacuna.transpose_csr_sorts`, `Lacuna.transpose_csc_sorts`, `Lacuna.transpose_csr_unsorted_exists`, `Lacuna.transpose_csr_correct`, `Lacuna.transpose_csc_correct`, `Lacuna.transpose_csr_unique`, `Lacuna.transpose_csc_unique`, `Lacuna.transpose_strategies_agree`, `Lacuna.transposeA_exists`, `Lacuna.transpose_csr_exists`, `Lacuna.transpose_csc_exists`, `Lacuna.transpose_csr_twice`, `Lacuna.transpose_csc_twice`, `Lacuna.unfold_coo_spec`, `Lacuna.unfold_coo_sum`, `Lacuna.unfold_coo_correct`, `Lacuna.unfold_coo_runs`, `Lacuna.unfold_csr_correct`, `Lacuna.unfold_csc_correct`, `Lacuna.unfold_rejects`, `Lacuna.spmv_csr_exact`, `Lacuna.spmv_csr_correct`, `Lacuna.spmvCsr_run_iff`, `Lacuna.spmv_csc_correct`, `Lacuna.spmv_coo_correct`, `Lacuna.spmv_nd_correct`, `Lacuna.spmv_formats_agree`, `Lacuna.spmvCsc_run_iff`, `Lacuna.spmvCoo_run_iff`, `Lacuna.spmm_csr_exact`, `Lacuna.spmm_csr_correct`, `Lacuna.spmm_csc_exact`, `Lacuna.spmm_csc_correct`, `Lacuna.spmm_coo_exact`, `Lacuna.spmm_coo_correct`, `Lacuna.spmm_auto_eq_csr`, `Lacuna.spmm_auto_correct`, `Lacuna.spmm_formats_agree`, `Lacuna.spmm_nd_correct`, `Lacuna.spmm_length_check_wraps`, `Lacuna.tensordot_csr_correct`, `Lacuna.tensordot_csc_correct`, `Lacuna.tensordot_coo_correct`, `Lacuna.tensordot_nd_correct`, `Lacuna.tensordot_rejects`, `Lacuna.vecdot_csr_correct`, `Lacuna.vecdot_csc_correct`, `Lacuna.vecdot_coo_correct`, `Lacuna.vecdot_nan_differs`, `Lacuna.tensordot_csr_zero_dim_panics`, `Lacuna.tensordot_nd_collapses_axes`, `Lacuna.sum_csr_correct`, `Lacuna.sum_csc_correct`, `Lacuna.sum_coo_correct`, `Lacuna.sum_coond_correct`, `Lacuna.row_sums_csr_correct`, `Lacuna.col_sums_csr_correct`, `Lacuna.row_sums_csc_correct`, `Lacuna.col_sums_csc_correct`, `Lacuna.row_sums_coo_correct`, `Lacuna.col_sums_coo_correct`, `Lacuna.minmax_csr_correct`, `Lacuna.minmax_csc_correct`, `Lacuna.minmax_coo_correct`, `Lacuna.row_minmax_csr_correct`, `Lacuna.col_minmax_csc_correct`, `Lacuna.col_minmax_csr_correct`, `Lacuna.row_minmax_csc_correct`, `Lacuna.row_minmax_coo_correct`, `Lacuna.col_minmax_coo_correct`, `Lacuna.line_minmax_no_cells`, `Lacuna.prod_csr_correct`, `Lacuna.prod_csc_correct`, `Lacuna.prod_coo_correct`, `Lacuna.prod_coond_correct`, `Lacuna.row_prods_csr_correct`, `Lacuna.col_prods_csc_correct`, `Lacuna.col_prods_csr_correct`, `Lacuna.row_prods_csc_correct`, `Lacuna.row_prods_coo_correct`, `Lacuna.col_prods_coo_correct`, `Lacuna.prod_coo_duplicates_wrong`, `Lacuna.var_csr_correct`, `Lacuna.var_csc_correct`, `Lacuna.var_coo_correct`, `Lacuna.var_coond_correct`, `Lacuna.row_vars_csr_correct`, `Lacuna.col_vars_csc_correct`, `Lacuna.col_vars_csr_correct`, `Lacuna.row_vars_csc_correct`, `Lacuna.row_vars_coo_correct`, `Lacuna.col_vars_coo_correct`, `Lacuna.specVar_nonneg`, `Lacuna.listVar_nonneg`, `Lacuna.std_correct`, `Lacuna.var_coo_duplicates_wrong`, `Lacuna.var_count_saturates`, `Lacuna.all_any_csr_correct`, `Lacuna.all_any_csc_correct`, `Lacuna.row_all_any_csr_correct`, `Lacuna.col_all_any_csc_correct`, `Lacuna.col_all_any_csr_correct`, `Lacuna.row_all_any_csc_correct`, `Lacuna.all_any_coo_correct`, `Lacuna.py_all_any_coo`, `Lacuna.all_any_coond_correct`, `Lacuna.all_any_coond_runs`, `Lacuna.cumsum_axis1_exact`, `Lacuna.cumsum_axis1_correct`, `Lacuna.cumprod_axis1_exact`, `Lacuna.cumprod_axis1_correct`, `Lacuna.cumsum_axis0_correct`, `Lacuna.cumprod_axis0_correct`, `Lacuna.cumsum_csc_axis0_correct`, `Lacuna.cumprod_csc_axis0_correct`, `Lacuna.cumsum_csc_axis1_sorted`, `Lacuna.cumprod_csc_axis1_sorted`, `Lacuna.cumulative_coo_correct`, `Lacuna.cumulative_csc_axis1_wrong`, `Lacuna.diff_csr_axis1_correct`, `Lacuna.diff_csr_axis1_exists`, `Lacuna.diff_csr_axis0_correct`, `Lacuna.diff_csr_axis0_exists`, `Lacuna.diff_csc_axis1_correct`, `Lacuna.diff_csc_axis0_correct`, `Lacuna.diff_csc_exists`, `Lacuna.diff_coo_correct`, `Lacuna.diag_csr_correct`, `Lacuna.diag_csr_val`, `Lacuna.eye_csr_correct`, `Lacuna.py_eye_correct`, `Lacuna.getitem_csr_correct`, `Lacuna.getitem_csr_val`, `Lacuna.getrow_csr_last`, `Lacuna.getrow_csr_correct`, `Lacuna.getcol_csr_eq`, `Lacuna.getcol_csr_correct`, `Lacuna.toarray_csr_last`, `Lacuna.toarray_csr_correct`, `Lacuna.getcol_csr_out_of_range`, `Lacuna.pyPos_doc`, `Lacuna.assignAt_error`, `Lacuna.matmul_of_product`, `Lacuna.matmul_csr_correct`, `Lacuna.matmul_csc_correct`, `Lacuna.matmul_coo_correct`, `Lacuna.ranges_increasing`, `Lacuna.ranges_cover`, `Lacuna.ranges_balanced`, `Lacuna.transpose_add_csr`, `Lacuna.transpose_add_csc`, `Lacuna.transpose_sub_csr`, `Lacuna.transpose_sub_csc`, `Lacuna.transpose_inter_csr`, `Lacuna.transpose_inter_csc`, `Lacuna.transpose_hadamard_csr`, `Lacuna.transpose_hadamard_csc`, `Lacuna.scalar_ops_csr_stored`, `Lacuna.scalar_ops_csc_stored`, `Lacuna.scalar_floordiv_rem_correct`, `Lacuna.scalar_pow_correct`, `Lacuna.scalar_pow_zero_wrong`, `Lacuna.scalar_floordiv_rem_csc_correct`, `Lacuna.scalar_pow_csc_correct`, `Lacuna.scalar_floordiv_rem_coo_correct`, `Lacuna.scalar_pow_coo_correct`, `Lacuna.scalar_floordiv_coo_duplicates_wrong`, `Lacuna.mean_coond_correct`, `Lacuna.compare_csr_correct`, `Lacuna.compare_csc_correct`, `Lacuna.compare_coo_correct`, `Lacuna.compare_csr_coo_correct`, `Lacuna.compare_coond_correct`, `Lacuna.toarray_csc_last`, `Lacuna.toarray_csc_correct`, `Lacuna.toarray_coo_correct`, `Lacuna.dense_nd_correct`, `Lacuna.normalize_axes_2d`, `Lacuna.normalize_axes_nd`, `Lacuna.normalize_axes_nd_other`, `Lacuna.reduce2d_correct`, `Lacuna.reduce2d_rejects`, `Lacuna.py_sum_csr`, `Lacuna.py_sum_csc`, `Lacuna.py_sum_coo`, `Lacuna.py_prod_csr`, `Lacuna.py_prod_csc`, `Lacuna.py_prod_coo`, `Lacuna.py_var_csr`, `Lacuna.py_var_csc`, `Lacuna.py_var_coo`, `Lacuna.py_std_of_var`, `Lacuna.py_minmax_csr`, `Lacuna.py_minmax_csc`, `Lacuna.py_minmax_coo`, `Lacuna.py_all_any_csr`, `Lacuna.py_all_any_csc`, `Lacuna.py_mean_csr`, `Lacuna.py_mean_csc`, `Lacuna.py_mean_coo`, `Lacuna.count_nonzero_csr`, `Lacuna.count_nonzero_csc`, `Lacuna.count_nonzero_coo`, `Lacuna.count_nonzero_explicit_zero`, `Lacuna.py_sum_coond`, `Lacuna.py_mean_coond`, `Lacuna.py_sum_coond_none`, `Lacuna.py_mean_coond_none`, `Lacuna.reduceCoond_rejects`, `Lacuna.py_coond_all_axes_panics`, `Lacuna.add_csr_ptr`, `Lacuna.add_csc_ptr`, `Lacuna.sub_csr_ptr`, `Lacuna.sub_csc_ptr`, `Lacuna.hadamard_csr_ptr`, `Lacuna.hadamard_csc_ptr`, `Lacuna.div_csr_ptr`, `Lacuna.div_csc_ptr`, `Lacuna.floordiv_csr_ptr`, `Lacuna.floordiv_csc_ptr`, `Lacuna.rem_csr_ptr`, `Lacuna.rem_csc_ptr`, `Lacuna.pow_csr_ptr`, `Lacuna.pow_csc_ptr`, `Lacuna.add_csr_ptr_correct`, `Lacuna.spmv_csr_ptr`, `Lacuna.vecdot_csc_ptr`, `Lacuna.spmv_csr_ptr_correct`, `Lacuna.simd_map_ptr`, `Lacuna.chunk_reductions_ptr`, `Lacuna.sum_ptr`, `Lacuna.prod_ptr`, `Lacuna.minmax_ptr`, `Lacuna.sums_ptr`, `Lacuna.abs_ptr`, `Lacuna.mul_scalar_ptr`, `Lacuna.row_sums_csr_ptr`, `Lacuna.col_sums_csc_ptr`, `Lacuna.row_sums_csr_no_ub`, `Lacuna.col_sums_csc_no_ub`, `Lacuna.row_sums_csr_ptr_correct`, `Lacuna.sum_ptr_correct`, `Lacuna.csr_new_checked`, `Lacuna.csc_new_checked`, `Lacuna.csr_program_safe`, `Lacuna.csr_program_wf`, `Lacuna.csr_program_matvec_safe`, `Lacuna.csc_program_safe`, `Lacuna.csc_handle_program_safe`, `Lacuna.csc_abs_ub`, `Lacuna.csr_to_csc_ptr`, `Lacuna.csc_to_csr_ptr`, `Lacuna.csr_to_coo_ptr`, `Lacuna.csc_to_coo_ptr`, `Lacuna.csr_to_csc_ptr_correct`, `Lacuna.csc_to_csr_ptr_correct`, `Lacuna.csr_to_csc_ptr_exists`, `Lacuna.transpose_csr_ptr`, `Lacuna.transpose_csc_ptr`, `Lacuna.transpose_csr_ptr_correct`, `Lacuna.transpose_csc_ptr_correct`, `Lacuna.transpose_csr_ptr_exists`, `Lacuna.transpose_csc_ptr_exists`, `Lacuna.transpose_csr_outside_ub`, `Lacuna.transpose_csc_outside_ub`, `Lacuna.transpose_csr_outside_panics`, `Lacuna.prune_csr_ptr`, `Lacuna.prune_csc_ptr`, `Lacuna.prune_csr_ptr_correct`, `Lacuna.prune_csc_ptr_correct`, `Lacuna.prune_csr_any_pointers`, `Lacuna.prune_csc_any_pointers`, `Lacuna.prunePtr_surplus`, `Lacuna.prune_csr_surplus_ub`, `Lacuna.prunePtr_short_ub`, `Lacuna.reshape_ptr_any`, `Lacuna.reshape_ptr_release`, `Lacuna.reshape_ptr_correct`, `Lacuna.reshape_size_wraps`, `Lacuna.unfold_ptr_any`, `Lacuna.unfold_ptr_release`, `Lacuna.unfold_ptr_correct`, `Lacuna.py_reshape_safe`, `Lacuna.py_reshape_wraps`, `Lacuna.py_unfold_safe`, `Lacuna.cumsum_axis1_ptr`, `Lacuna.cumprod_axis1_ptr`, `Lacuna.cumsum_axis1_ptr_correct`, `Lacuna.cumprod_axis1_ptr_correct`, `Lacuna.cumsum_axis0_ptr`, `Lacuna.cumprod_axis0_ptr`, `Lacuna.cumsum_axis0_ptr_correct`, `Lacuna.cumprod_axis0_ptr_correct`, `Lacuna.cumsum_size_wraps`, `Lacuna.cumprod_size_wraps`, `Lacuna.cumsum_outside_ub`, `Lacuna.diff_csr_axis1_ptr_any`, `Lacuna.diff_csr_axis1_ptr`, `Lacuna.diff_csr_axis1_ptr_correct`, `Lacuna.diff_csr_axis0_ptr`, `Lacuna.diff_csr_axis0_ptr_correct`, `Lacuna.diff_csc_axis1_ptr`, `Lacuna.diff_csc_axis0_ptr`, `Lacuna.diff_csc_ptr_correct`, `Lacuna.diff_past_end_ub`, `Lacuna.hmap_insert_no_ub`, `Lacuna.hmap_drain_exact`, `Lacuna.col_sums_ptr`, `Lacuna.col_sums_ptr_correct`, `Lacuna.col_sums_no_ub`, `Lacuna.col_sums_ub`, `Lacuna.row_sums_csc_ptr`, `Lacuna.row_sums_csc_ptr_correct`, `Lacuna.row_sums_csc_no_ub`, `Lacuna.row_sums_csc_ub`, `Lacuna.row_sums_coo_ptr`, `Lacuna.row_sums_coo_ptr_correct`, `Lacuna.row_sums_coo_no_ub`, `Lacuna.row_sums_coo_ub`, `Lacuna.col_sums_coo_ptr`, `Lacuna.col_sums_coo_ptr_correct`, `Lacuna.col_sums_coo_no_ub`, `Lacuna.col_sums_coo_ub`, `Lacuna.spmv_csc_ptr`, `Lacuna.spmv_csc_ptr_correct`, `Lacuna.spmv_csc_no_ub`, `Lacuna.spmv_csc_ub`, `Lacuna.spmv_coo_ptr`, `Lacuna.spmv_coo_ptr_correct`, `Lacuna.spmv_coo_no_ub`, `Lacuna.spmv_coo_ub`, `Lacuna.vecdot_csr_ptr`, `Lacuna.vecdot_csr_ptr_correct`, `Lacuna.vecdot_csr_no_ub`, `Lacuna.vecdot_coo_ptr`, `Lacuna.vecdot_coo_ptr_correct`, `Lacuna.vecdot_coo_no_ub`, `Lacuna.vecdot_coo_ub`, `Lacuna.spmm_csr_ptr`, `Lacuna.spmm_csc_ptr`, `Lacuna.spmm_coo_ptr`, `Lacuna.spmm_auto_ptr`, `Lacuna.spmm_csr_ptr_correct`, `Lacuna.spmm_csc_ptr_correct`, `Lacuna.spmm_coo_ptr_correct`, `Lacuna.spmm_auto_ptr_correct`, `Lacuna.spmm_csr_no_ub`, `Lacuna.spmm_csc_no_ub`, `Lacuna.spmm_coo_no_ub`, `Lacuna.spmm_csr_ub`, `Lacuna.spmm_csc_ub`, `Lacuna.spmm_coo_ub`, `Lacuna.spmm_csc_size_wraps`, `Lacuna.spmm_coo_size_wraps`, `Lacuna.add_nd_no_ub`, `Lacuna.sub_nd_no_ub`, `Lacuna.hadamard_nd_no_ub`, `Lacuna.reduce_sum_nd_no_ub`, `Lacuna.spmv_nd_no_ub`, `Lacuna.union_nd_ptr`, `Lacuna.add_nd_ptr`, `Lacuna.sub_nd_ptr`, `Lacuna.hadamard_nd_ptr`, `Lacuna.reduce_sum_nd_ptr`, `Lacuna.reduce_sum_nd_ptr_correct`, `Lacuna.spmv_nd_ptr`, `Lacuna.spmv_nd_ptr_correct`, `Lacuna.reduce_sum_nd_rejects`, `Lacuna.spmv_nd_ptr_rejects`, `Lacuna.spmm_nd_no_ub`, `Lacuna.spmm_nd_ptr`, `Lacuna.spmm_nd_ptr_correct`, `Lacuna.spmm_nd_ptr_rejects`, `Lacuna.spmm_nd_ptr_no_columns`, `Lacuna.tensordot_nd_no_ub`, `Lacuna.py_tensordot_nd_safe`, `Lacuna.tensordot_nd_ptr_correct`, `Lacuna.spmm_nd_first_ub`, `Lacuna.spmm_nd_ub`, `Lacuna.spmm_nd_size_wraps`, `Lacuna.broadcast_no_ub`, `Lacuna.py_broadcast_safe`, `Lacuna.broadcast_ptr`, `Lacuna.broadcast_ptr_correct`, `Lacuna.broadcast_ptr_incompatible`, `Lacuna.broadcast_size_wraps`, `Lacuna.py_broadcast_wraps`, `Lacuna.sum_terms`, `Lacuna.row_sums_csr_terms`, `Lacuna.col_sums_csr_terms`, `Lacuna.row_sums_csc_terms`, `Lacuna.col_sums_csc_terms`, `Lacuna.row_sums_coo_terms`, `Lacuna.col_sums_coo_terms`, `Lacuna.sum_error`, `Lacuna.row_sums_csr_error`, `Lacuna.col_sums_csr_error`, `Lacuna.row_sums_csc_error`, `Lacuna.col_sums_csc_error`, `Lacuna.row_sums_coo_error`, `Lacuna.col_sums_coo_error`, `Lacuna.rounded_sum_gamma`, `Lacuna.sum_exact`, `Lacuna.row_sums_csr_exact`, `Lacuna.col_sums_csr_exact`, `Lacuna.row_sums_csc_exact`, `Lacuna.col_sums_csc_exact`, `Lacuna.row_sums_coo_exact`, `Lacuna.col_sums_coo_exact`, `Lacuna.col_sums_csr_runs`, `Lacuna.row_sums_csc_runs`, `Lacuna.row_sums_coo_runs`, `Lacuna.col_sums_coo_runs`, `Lacuna.sum_not_reproducible`, `Lacuna.spmv_csc_terms`, `Lacuna.spmv_coo_terms`, `Lacuna.vecdot_csr_terms`, `Lacuna.vecdot_coo_terms`, `Lacuna.spmm_csr_terms`, `Lacuna.spmm_csc_terms`, `Lacuna.spmm_coo_terms`, `Lacuna.spmv_csr_error`, `Lacuna.spmv_csc_error`, `Lacuna.spmv_coo_error`, `Lacuna.vecdot_csr_error`, `Lacuna.vecdot_csc_error`, `Lacuna.vecdot_coo_error`, `Lacuna.spmm_csr_error`, `Lacuna.spmm_csc_error`, `Lacuna.spmm_coo_error`, `Lacuna.spmm_auto_error`, `Lacuna.spmv_csr_unit`, `Lacuna.spmv_csc_unit`, `Lacuna.spmv_coo_unit`, `Lacuna.vecdot_csr_unit`, `Lacuna.vecdot_csc_unit`, `Lacuna.vecdot_coo_unit`, `Lacuna.spmm_csr_unit`, `Lacuna.spmm_csc_unit`, `Lacuna.spmm_coo_unit`, `Lacuna.spmv_csc_runs`, `Lacuna.spmv_coo_runs`, `Lacuna.vecdot_csr_runs`, `Lacuna.vecdot_coo_runs`, `Lacuna.vecdot_special_disagree`, `Lacuna.py_new_valid`, `Lacuna.py_matmul_vec_correct`, `Lacuna.py_matmul_mat_correct`, `Lacuna.py_matmul_batch_correct`, `Lacuna.py_tensordot_correct`, `Lacuna.py_tensordot_vec_correct`, `Lacuna.py_vecdot_correct`, `Lacuna.py_matmul_rejects`, `Lacuna.py_tensordot_rejects`, `Lacuna.py_vecdot_rejects`, `Lacuna.py_tensordot_empty`, `Lacuna.py_linalg_no_ub`, `Lacuna.py_tensordot_coo_ub`, `Lacuna.py_tensordot_csc_ub`, `Lacuna.py_vecdot_coo_ub`, `Lacuna.pyNd_new_any`, `Lacuna.py_tensordot_nd_correct`, `Lacuna.py_tensordot_nd_rank`, `Lacuna.py_vecdot_nd_correct`, `Lacuna.py_linalg_nd_no_ub`, `Lacuna.py_vecdot_nd_one_axis`, `Lacuna.py_tensordot_nd_ub`, `Lacuna.prog_sound`, `Lacuna.prog_unique`, `Lacuna.prog_profile`, `Lacuna.prog_safe`, `Lacuna.mode_unfold_shape`, `Lacuna.documented_broadcast_panics`, `Lacuna.coond_default_ub`, `Lacuna.prog_correct`, `Lacuna.prog_distinct`, `Lacuna.prog_equiv`, `Lacuna.transpose_add_equiv`, `Lacuna.abs_duplicates`, `Lacuna.sparse_pow_storage`, `Lacuna.line_reductions_ptr`, `Lacuna.line_reductions_no_ub`, `Lacuna.col_reductions_csr_ptr`, `Lacuna.row_reductions_csc_ptr`, `Lacuna.row_logic_csc_ptr`, `Lacuna.prods_csr_ptr_correct`, `Lacuna.prods_csc_ptr_correct`, `Lacuna.vars_csr_ptr_correct`, `Lacuna.vars_csc_ptr_correct`, `Lacuna.exts_csr_ptr_correct`, `Lacuna.exts_csc_ptr_correct`, `Lacuna.logic_csr_ptr_correct`, `Lacuna.logic_csc_ptr_correct`, `Lacuna.col_reductions_outside_ub`, `Lacuna.row_reductions_outside_ub`, `Lacuna.py_reduce`, `Lacuna.py_minmax`, `Lacuna.py_logic`, `Lacuna.py_reduce_rejects`, `Lacuna.py_mean_no_cells`, `Lacuna.py_nd_rejects`, `Lacuna.py_nd_all_axes`, `Lacuna.py_nd_reduce_all`, `Lacuna.py_nd_reduce_axes`, `Lacuna.prog_reduce_raises`, `Lacuna.prog_reduce`, `Lacuna.prog_logic`, `Lacuna.py_minmax_within`, `Lacuna.prog_minmax`, `Lacuna.prog_nd_reduce_all`, `Lacuna.prog_nd_reduce_axes`, `Lacuna.py_scan`, `Lacuna.py_scan_csc_rows`, `Lacuna.py_scan_rejects`, `Lacuna.py_scan_csc_wrong`, `Lacuna.py_scan_size_wraps`, `Lacuna.py_diff`, `Lacuna.py_diff_rejects`, `Lacuna.py_diff_csc_unsorted`, `Lacuna.py_count`, `Lacuna.prog_scan_raises`, `Lacuna.prog_scan`, `Lacuna.prog_diff`, `Lacuna.prog_count`, `Lacuna.py_linalg`, `Lacuna.py_linalg_raises`, `Lacuna.py_linalg_nd_raises`, `Lacuna.linFn_error_none`, `Lacuna.linFn_ndError_none`, `Lacuna.py_tensordot_nd`, `Lacuna.py_vecdot_nd`, `Lacuna.prog_linalg_raises`, `Lacuna.prog_linalg_safe`, `Lacuna.prog_linalg`, `Lacuna.prog_tensordot_nd`, `Lacuna.prog_vecdot_nd`, `Lacuna.prog_bits`, `Lacuna.stores_determine`, `Lacuna.prog_bits_equiv`, `Lacuna.prog_reproducible`, `Lacuna.transpose_twice_bits`, `Lacuna.transpose_bin_bits`, `Lacuna.prune_twice_bits`, `Lacuna.reshape_twice_bits`, `Lacuna.unfold_duplicates_machine`, `Lacuna.eliminate_zeros_nan`, `Lacuna.prog_toarray`, `Lacuna.prog_nnz`, `Lacuna.prog_getitem`, `Lacuna.prog_compare`, `Lacuna.read_reproducible`, `Lacuna.getitem_toarray`, `Lacuna.transpose_dense`, `Lacuna.prog_toarray_exact`, `Lacuna.prog_getitem_exact`, `Lacuna.prog_compare_exact`, `Lacuna.prog_equal_iff`, `Lacuna.session_valid`, `Lacuna.session_total`, `Lacuna.session_made`, `Lacuna.session_names`, `Lacuna.session_frame`, `Lacuna.session_write`, `Lacuna.session_fresh`, `Lacuna.session_unwritten`, `Lacuna.session_ask`, `Lacuna.session_stale`, `Lacuna.frozen_immune`, `Lacuna.session_exact`, `Lacuna.session_lit_cells`, `Lacuna.stale_disagree`, `Lacuna.index_write_ub`, `Lacuna.py_reduce_any`, `Lacuna.py_logic_any`, `Lacuna.py_nd_reduce_any`, `Lacuna.py_prod_sparse`, `Lacuna.prog_reduce_any`, `Lacuna.prog_logic_any`, `Lacuna.prog_nd_reduce_any`, `Lacuna.prog_sum_rounded`, `Lacuna.prog_sum_nan`, `Lacuna.prog_min_mem`, `Lacuna.term_sound`, `Lacuna.term_returns`, `Lacuna.operator_differs`, `Lacuna.operator_mixed`, `Lacuna.stack_leaks`, `Lacuna.dispatch2_arith`, `Lacuna.dispatch2_arith_dense`, `Lacuna.dispatch2_lin`, `Lacuna.dispatch2_compare`, `Lacuna.promote_lub`, `Lacuna.promote_assoc`, `Lacuna.promote_size`, `Lacuna.dtypeSize_known`, `Lacuna.astype_outcome`, `Lacuna.threads_pos`, `Lacuna.threads_get_set`, `Lacuna.threads_set_nonpos`, `Lacuna.threads_before`, `Lacuna.threads_disagree`, `Lacuna.py_linalg_any`, `Lacuna.py_linalg_bits`, `Lacuna.py_linalg_formats`, `Lacuna.prog_linalg_any`, `Lacuna.prog_linalg_bits`, `Lacuna.py_linalg_error`, `Lacuna.py_linalg_unit`, `Lacuna.py_linalg_nan`, `Lacuna.py_vecdot_classes_disagree`, `Lacuna.py_scan_any`, `Lacuna.py_scan_csc_rows_any`, `Lacuna.py_scan_once`, `Lacuna.py_cumprod_gap`, `Lacuna.prog_scan_any`, `Lacuna.prog_cumsum_rounded`, `Lacuna.prog_cumsum_nan`, `Lacuna.py_diff_safe`, `Lacuna.py_diff_any`, `Lacuna.py_diff_dense`, `Lacuna.prog_diff_any`, `Lacuna.f64_nearest`, `Lacuna.f64_numpy`, `Lacuna.f64_toarray`, `Lacuna.f64_sum`, `Lacuna.f64_sum_nan`, `Lacuna.f64_mean`, `Lacuna.f64_var`, `Lacuna.f64_cumsum`, `Lacuna.f64_diff`, `Lacuna.f64_linalg`, `Lacuna.f64_negative`, `Lacuna.f64_sign`, `Lacuna.f64_reduce_runs`, `Lacuna.int_toarray`, `Lacuna.int_sum`, `Lacuna.int_prod`, `Lacuna.int_cumsum`, `Lacuna.int_diff`, `Lacuna.int_linalg`, `Lacuna.f64_div_error`, `Lacuna.f64_floordiv`, `Lacuna.int_floordiv`, `Lacuna.int_remainder`, `Lacuna.div_not_nearest`, `Lacuna.div_tiny`, `Lacuna.nan_lost`, `Lacuna.floordiv_tenth`, `Lacuna.rem_negative`, `Lacuna.infinity_lost`, `Lacuna.f64_var_error`, `Lacuna.elems_var_error`, `Lacuna.var_cancels`, `Lacuna.f64_rounds`, `Lacuna.f64_rounds_unique`, `Lacuna.f64_signs`, `Lacuna.f64_floor`, `Lacuna.f64_sqrt_nearest`, `Lacuna.f64_std_nearest`, `Lacuna.f64_nan_iff`, `Lacuna.f64_infinite`, `Lacuna.f64_order`, `Lacuna.matmul_strided_raises`, `Lacuna.matmul_layout_safe`, `Lacuna.tensordot_layout`, `Lacuna.vecdot_int`, `Lacuna.vecdot_strided_raises`, `Lacuna.tensordotNd_int_raises`, `Lacuna.new_csr_strided`, `Lacuna.new_strided`, `Lacuna.fortran_slice`, `Lacuna.f64_quotient`, `Lacuna.f64_quotient_zero`, `Lacuna.f64_divide_nearest`, `Lacuna.f64_floor_divide`, `Lacuna.f64_min`, `Lacuna.f64_max`, `Lacuna.f64_prod`, `Lacuna.f64_cumprod`, `Lacuna.f64_logic`, `Lacuna.f64_compare`, `Lacuna.f64_count`, `Lacuna.py_count_any`, `Lacuna.prog_count_any`, `Lacuna.f64_elems`, `Lacuna.elems_toarray`, `Lacuna.elems_entries`, `Lacuna.elems_sum`, `Lacuna.elems_sum_nan`, `Lacuna.elems_mean`, `Lacuna.elems_reduce_runs`, `Lacuna.elems_var`, `Lacuna.elems_min`, `Lacuna.elems_max`, `Lacuna.elems_prod`, `Lacuna.elems_cumsum`, `Lacuna.elems_cumprod`, `Lacuna.elems_diff`, `Lacuna.elems_logic`, `Lacuna.elems_count`, `Lacuna.elems_linalg`, `Lacuna.elems_compare`, `Lacuna.elems_nd_sum`, `Lacuna.elems_nd_mean`, `Lacuna.py_tensordot_nd_any`, `Lacuna.py_vecdot_nd_any`, `Lacuna.prog_tensordot_nd_any`, `Lacuna.prog_vecdot_nd_any`, `Lacuna.prog_tensordot_nd_error`, `Lacuna.prog_vecdot_nd_error`, `Lacuna.prog_tensordot_nd_nan`, `Lacuna.prog_vecdot_nd_nan`, `Lacuna.elems_tensordot_nd`, `Lacuna.elems_vecdot_nd`, `Lacuna.whole_exact`, `Lacuna.whole_toarray`, `Lacuna.whole_entries`, `Lacuna.whole_sum`, `Lacuna.whole_nd_sum`, `Lacuna.whole_prod`, `Lacuna.whole_cumsum`, `Lacuna.whole_linalg`, `Lacuna.whole_tensordot_nd`, `Lacuna.whole_vecdot_nd`, `Lacuna.elems_sum_axes`, `Lacuna.elems_mean_axes`, `Lacuna.elems_read`, `Lacuna.whole_mean_axes`, `Lacuna.whole_mean`, `Lacuna.whole_nd_mean`, `Lacuna.whole_diff`
