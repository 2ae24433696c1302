{
 "claims": [
  {
   "property": "C01",
   "status": "proved",
   "theorems": [
    "Lacuna.csr_fromParts_iff"
   ],
   "note": ""
  },
  {
   "property": "C02",
   "status": "proved",
   "theorems": [
    "Lacuna.csc_fromParts_iff"
   ],
   "note": ""
  },
  {
   "property": "C03",
   "status": "proved",
   "theorems": [
    "Lacuna.coo_fromParts_iff"
   ],
   "note": ""
  },
  {
   "property": "C04",
   "status": "proved",
   "theorems": [
    "Lacuna.coond_fromParts_iff"
   ],
   "note": "nnz*ndim must fit usize, as it does for any array that exists in memory"
  },
  {
   "property": "C05",
   "status": "proved",
   "theorems": [
    "Lacuna.add_csr_correct",
    "Lacuna.add_csc_correct",
    "Lacuna.add_csr_stored",
    "Lacuna.add_csc_stored",
    "Lacuna.add_csr_panics_iff",
    "Lacuna.add_csc_panics_iff",
    "Lacuna.add_fill_terminates"
   ],
   "note": "the _stored forms hold for every arithmetic; the value forms assume 0+x=x and exact equality"
  },
  {
   "property": "C06",
   "status": "proved",
   "theorems": [
    "Lacuna.sub_csr_correct",
    "Lacuna.sub_csc_correct",
    "Lacuna.sub_csr_stored",
    "Lacuna.sub_csc_stored",
    "Lacuna.sub_self_empty",
    "Lacuna.sub_self_empty_csc",
    "Lacuna.sub_csr_panics_iff",
    "Lacuna.sub_csc_panics_iff",
    "Lacuna.sub_fill_terminates"
   ],
   "note": ""
  },
  {
   "property": "C07",
   "status": "proved",
   "theorems": [
    "Lacuna.hadamard_csr_correct",
    "Lacuna.hadamard_csc_correct",
    "Lacuna.inter_csr_stored",
    "Lacuna.inter_csc_stored",
    "Lacuna.inter_fill_terminates",
    "Lacuna.hadamard_csr_panics_iff",
    "Lacuna.hadamard_csc_panics_iff"
   ],
   "note": ""
  },
  {
   "property": "C08",
   "status": "proved",
   "theorems": [
    "Lacuna.add_count_eq_fill",
    "Lacuna.sub_count_eq_fill",
    "Lacuna.hadamard_count_eq_fill",
    "Lacuna.div_count_eq_fill",
    "Lacuna.floordiv_count_eq_fill",
    "Lacuna.rem_count_eq_fill",
    "Lacuna.pow_count_eq_fill",
    "Lacuna.fill_positions_exact"
   ],
   "note": ""
  },
  {
   "property": "C09",
   "status": "proved",
   "theorems": [
    "Lacuna.add_csr_schedule_indep",
    "Lacuna.add_csc_schedule_indep",
    "Lacuna.sub_csr_schedule_indep",
    "Lacuna.sub_csc_schedule_indep",
    "Lacuna.hadamard_csr_schedule_indep",
    "Lacuna.hadamard_csc_schedule_indep",
    "Lacuna.div_csr_schedule_indep",
    "Lacuna.div_csc_schedule_indep",
    "Lacuna.floordiv_csr_schedule_indep",
    "Lacuna.floordiv_csc_schedule_indep",
    "Lacuna.rem_csr_schedule_indep",
    "Lacuna.rem_csc_schedule_indep",
    "Lacuna.pow_csr_schedule_indep",
    "Lacuna.pow_csc_schedule_indep",
    "Lacuna.binCsr_runs",
    "Lacuna.binCsc_runs"
   ],
   "note": ""
  },
  {
   "property": "C10",
   "status": "proved",
   "theorems": [
    "Lacuna.div_csr_stored",
    "Lacuna.div_csc_stored",
    "Lacuna.div_csr_correct",
    "Lacuna.div_csc_correct",
    "Lacuna.div_csr_panics_iff",
    "Lacuna.div_csc_panics_iff"
   ],
   "note": ""
  },
  {
   "property": "C100",
   "status": "proved",
   "theorems": [
    "Lacuna.elems_sum_fn",
    "Lacuna.elems_mean_fn",
    "Lacuna.whole_sum_fn",
    "Lacuna.whole_mean_fn",
    "Lacuna.mean_axis_not_correct"
   ],
   "note": "Binary64 as in C88, elements of programs as in C96, exact elements as in C98; fibre and reducedShape (Spec/PyReduce) say which elements belong to which cell, F64.ReciprocalMean and F64.ScaledMean are in Spec/F64NdAxes. At most 2^53 elements are averaged. What happens with axis=None is C96 and C99 (whole_nd_mean), with all axes named or an axis that does not exist C76."
  },
  {
   "property": "C101",
   "status": "proved",
   "theorems": [
    "Lacuna.any_sound",
    "Lacuna.any_safe",
    "Lacuna.any_of_eval",
    "Lacuna.any_exists",
    "Lacuna.any_reproducible",
    "Lacuna.any_bits",
    "Lacuna.any_correct",
    "Lacuna.any_distinct",
    "Lacuna.any_more"
   ],
   "note": "Prog.EvalAny (Model/PyVar) is Prog.Eval of C73 with an environment for every call. Literals and sizes as in C73, exact arithmetic as in C74, Determined as in C79. any_more is an existence statement about two machines with saturating arithmetic. The sessions of C81 also meet a new environment with every statement."
  },
  {
   "property": "C102",
   "status": "proved",
   "theorems": [
    "Lacuna.threads_valid",
    "Lacuna.threads_safe",
    "Lacuna.threads_total",
    "Lacuna.threads_atomic",
    "Lacuna.threads_product",
    "Lacuna.threads_value",
    "Lacuna.threads_value_nd",
    "Lacuna.borrow_stable",
    "Lacuna.borrow_race",
    "Lacuna.product_races",
    "Lacuna.product_races_nd",
    "Lacuna.write_beside",
    "Lacuna.session_threads",
    "Lacuna.tensordot_race",
    "Lacuna.matmul_no_race"
   ],
   "note": "PyThreads.Step (Model/PyGil) interleaves the statements of C81 with calls that are started and finished as separate actions. PyThreads.Tame: statements and calls as in C81 (no writes to index arrays), dense operands contiguous and products that fit into memory (LinFits). Construction of objects and NumPy's own copies run with the GIL held. Undefined behaviour of a racing write is the rule of the Rust reference for memory behind a shared slice; what a given compiler makes of it is not modelled."
  },
  {
   "property": "C103",
   "status": "proved",
   "theorems": [
    "Lacuna.rebind_valid",
    "Lacuna.rebind_total",
    "Lacuna.rebind_made",
    "Lacuna.rebind_attr",
    "Lacuna.rebind_data",
    "Lacuna.rebind_unshares",
    "Lacuna.rebind_frozen",
    "Lacuna.rebind_ask",
    "Lacuna.rebind_stale",
    "Lacuna.rebind_index_write",
    "Lacuna.rebind_length_raises",
    "Lacuna.rebind_shape_at",
    "Lacuna.rebind_shape_ub",
    "Lacuna.rebind_shape_ub_csc",
    "Lacuna.rebind_shape_ub_coo",
    "Lacuna.rebind_indptr_ub"
   ],
   "note": "Sess.Visits (Model/PyRebind) is Sess.Reach of C81 with assignments to attributes. RefObj.Keeps and Sess.TameCmd (Spec/PyRebind) are what is assumed of assignments and of writes to arrays of indices: valid contents afterwards, indices otherwise arbitrary; rebind_data, rebind_frozen and the two theorems after it assume less. New values are arrays of the session of the right element type, or shapes of the same rank; _handle, ndim and dtype are not assigned to. rebind_indptr_ub and rebind_shape_ub are disagreements with what an API in Python should allow."
  },
  {
   "property": "C104",
   "status": "proved",
   "theorems": [
    "Lacuna.gil_valid",
    "Lacuna.gil_safe",
    "Lacuna.gil_total",
    "Lacuna.gil_atomic",
    "Lacuna.gil_value",
    "Lacuna.gil_finish",
    "Lacuna.gil_drain",
    "Lacuna.gil_jobs",
    "Lacuna.gil_session",
    "Lacuna.gil_threads"
   ],
   "note": "PyThreads.Visits (Model/PyGilRebind) is PyThreads.Reach of C102 with assignments to attributes. PyThreads.TameCmd (Spec/PyGilRebind) is the assumption of C102 for calls and the assumption of C103 for assignments and writes to arrays of indices. The attributes of one operand are read at one moment; a switch of threads between two of these reads is not modelled."
  },
  {
   "property": "C11",
   "status": "proved",
   "theorems": [
    "Lacuna.floordiv_csr_stored",
    "Lacuna.floordiv_csc_stored",
    "Lacuna.rem_csr_stored",
    "Lacuna.rem_csc_stored",
    "Lacuna.floordiv_rem_consistent",
    "Lacuna.floordiv_rem_consistent_csc",
    "Lacuna.floordiv_csr_panics_iff",
    "Lacuna.floordiv_csc_panics_iff",
    "Lacuna.rem_csr_panics_iff",
    "Lacuna.rem_csc_panics_iff"
   ],
   "note": ""
  },
  {
   "property": "C12",
   "status": "proved",
   "theorems": [
    "Lacuna.pow_csr_stored",
    "Lacuna.pow_csc_stored",
    "Lacuna.pow_csr_panics_iff",
    "Lacuna.pow_csc_panics_iff"
   ],
   "note": ""
  },
  {
   "property": "C13",
   "status": "proved",
   "theorems": [
    "Lacuna.mulScalar_data",
    "Lacuna.mulScalar_csr_correct",
    "Lacuna.mulScalar_csc_correct",
    "Lacuna.mulScalar_coo_correct",
    "Lacuna.mulScalar_coond_correct"
   ],
   "note": ""
  },
  {
   "property": "C14",
   "status": "proved",
   "theorems": [
    "Lacuna.abs_csr_correct",
    "Lacuna.abs_csc_correct",
    "Lacuna.abs_coo_correct",
    "Lacuna.abs_coond_correct",
    "Lacuna.sign_csr_correct",
    "Lacuna.sign_csc_correct",
    "Lacuna.sign_coo_correct",
    "Lacuna.sign_coond_correct",
    "Lacuna.abs_coo_duplicates_wrong",
    "Lacuna.sign_coo_duplicates_wrong"
   ],
   "note": "the *_duplicates_wrong theorems are the proved negation for COO inputs with duplicate coordinates"
  },
  {
   "property": "C15",
   "status": "proved",
   "theorems": [
    "Lacuna.csr_canonical",
    "Lacuna.csc_canonical",
    "Lacuna.add_csr_comm",
    "Lacuna.add_csr_assoc",
    "Lacuna.hadamard_csr_comm",
    "Lacuna.hadamard_add_distrib"
   ],
   "note": ""
  },
  {
   "property": "C16",
   "status": "proved",
   "theorems": [
    "Lacuna.prune_csr_correct",
    "Lacuna.prune_csc_correct",
    "Lacuna.prune_coo_correct",
    "Lacuna.prune_coond_correct",
    "Lacuna.prune_csr_negative",
    "Lacuna.prune_csc_negative",
    "Lacuna.prune_coo_negative",
    "Lacuna.prune_coond_negative",
    "Lacuna.prune_csr_deterministic",
    "Lacuna.prune_csc_deterministic",
    "Lacuna.prune_csr_runs",
    "Lacuna.prune_csc_runs"
   ],
   "note": "NaN excluded by hypothesis only where the eps==0 shortcut applies; prune_nan_inconsistent shows the code is inconsistent there"
  },
  {
   "property": "C17",
   "status": "proved",
   "theorems": [
    "Lacuna.eliminate_zeros_csr_correct",
    "Lacuna.eliminate_zeros_csc_correct",
    "Lacuna.eliminate_zeros_coo_correct",
    "Lacuna.eliminate_zeros_coond_correct",
    "Lacuna.prune_nan_inconsistent"
   ],
   "note": ""
  },
  {
   "property": "C18",
   "status": "proved",
   "theorems": [
    "Lacuna.HMap.hashmap_correct",
    "Lacuna.HMap.hashmap_drain_correct"
   ],
   "note": "keys below usize::MAX, the reserved empty marker"
  },
  {
   "property": "C19",
   "status": "proved",
   "theorems": [
    "Lacuna.add_coond_correct",
    "Lacuna.sub_coond_correct",
    "Lacuna.hadamard_coond_correct",
    "Lacuna.unionNd_spec",
    "Lacuna.hadamard_coond_spec",
    "Lacuna.add_coond_shape_panics",
    "Lacuna.add_coond_last_cell_lost"
   ],
   "note": "products of trailing dimensions and the whole product must not exceed usize::MAX; add_coond_last_cell_lost proves the code drops the last cell of a shape with exactly 2^64 cells"
  },
  {
   "property": "C20",
   "status": "proved",
   "theorems": [
    "Lacuna.linearise_bijection",
    "Lacuna.noOverflow_of_pos"
   ],
   "note": ""
  },
  {
   "property": "C21",
   "status": "proved",
   "theorems": [
    "Lacuna.broadcast_mul_correct",
    "Lacuna.broadcast_mul_incompatible",
    "Lacuna.isBroadcast_iff",
    "Lacuna.broadcast_zero_extent",
    "Lacuna.broadcast_keeps_zeros"
   ],
   "note": "exact arithmetic (distributive, commutative addition); the output must have at most usize::MAX cells; broadcast_zero_extent is the proved disagreement with NumPy for extent 0 against 1"
  },
  {
   "property": "C22",
   "status": "proved",
   "theorems": [
    "Lacuna.reshape_correct",
    "Lacuna.reshape_val",
    "Lacuna.reshape_round_trip",
    "Lacuna.reshape_rejects",
    "Lacuna.reshape_runs",
    "Lacuna.reshape_index_wraps"
   ],
   "note": "new dimensions must fit i64; reshape_index_wraps is the proved failure otherwise"
  },
  {
   "property": "C23",
   "status": "proved",
   "theorems": [
    "Lacuna.permute_correct",
    "Lacuna.permute_inverse",
    "Lacuna.permute_returns_iff"
   ],
   "note": ""
  },
  {
   "property": "C24",
   "status": "proved",
   "theorems": [
    "Lacuna.reduce_sum_correct",
    "Lacuna.reduce_sum_spec",
    "Lacuna.reduce_sum_rejects",
    "Lacuna.reduce_mean_correct"
   ],
   "note": ""
  },
  {
   "property": "C25",
   "status": "proved",
   "theorems": [
    "Lacuna.coo_to_csr_exact",
    "Lacuna.coo_to_csr_correct",
    "Lacuna.coo_to_csr_sort_indep",
    "Lacuna.coo_to_csr_nodup",
    "Lacuna.coo_to_csc_sort_indep",
    "Lacuna.coo_to_csc_nodup",
    "Lacuna.coo_to_csc_exact",
    "Lacuna.coo_to_csc_correct"
   ],
   "note": "row count and number of triples at most i64::MAX, automatic for Rust vectors"
  },
  {
   "property": "C26",
   "status": "proved",
   "theorems": [
    "Lacuna.csr_to_coo_correct",
    "Lacuna.csc_to_coo_correct",
    "Lacuna.csr_to_coo_exists",
    "Lacuna.csc_to_coo_exists",
    "Lacuna.csr_coo_csr",
    "Lacuna.csc_coo_csc"
   ],
   "note": ""
  },
  {
   "property": "C27",
   "status": "proved",
   "theorems": [
    "Lacuna.csr_to_csc_correct",
    "Lacuna.csc_to_csr_correct",
    "Lacuna.csr_to_csc_slots",
    "Lacuna.csc_to_csr_slots",
    "Lacuna.csr_to_csc_sequential_wf",
    "Lacuna.csc_to_csr_sequential_wf",
    "Lacuna.csr_to_csc_sorted_unique",
    "Lacuna.csr_csc_csr_stored",
    "Lacuna.csr_to_csc_unsorted",
    "Lacuna.csr_to_csc_then_multiply_wrong"
   ],
   "note": "the sortedness clause is false in the code: csr_to_csc_unsorted is its proved negation; every other clause holds for every interleaving"
  },
  {
   "property": "C28",
   "status": "proved",
   "theorems": [
    "Lacuna.transpose_csr_sorts",
    "Lacuna.transpose_csc_sorts",
    "Lacuna.transpose_csr_unsorted_exists",
    "Lacuna.transpose_csr_correct",
    "Lacuna.transpose_csc_correct",
    "Lacuna.transpose_csr_unique",
    "Lacuna.transpose_csc_unique",
    "Lacuna.transpose_strategies_agree",
    "Lacuna.transposeA_exists",
    "Lacuna.transpose_csr_exists",
    "Lacuna.transpose_csc_exists",
    "Lacuna.transpose_csr_twice",
    "Lacuna.transpose_csc_twice",
    "Lacuna.transpose_coo_correct",
    "Lacuna.transpose_duplicates_lost"
   ],
   "note": "sizes representable as i64 (automatic); transpose_duplicates_lost shows why well-formedness is needed"
  },
  {
   "property": "C29",
   "status": "proved",
   "theorems": [
    "Lacuna.unfold_coo_spec",
    "Lacuna.unfold_coo_sum",
    "Lacuna.unfold_coo_correct",
    "Lacuna.unfold_coo_runs",
    "Lacuna.unfold_csr_correct",
    "Lacuna.unfold_csc_correct",
    "Lacuna.unfold_mode",
    "Lacuna.unfold_rejects",
    "Lacuna.unfold_index_wraps"
   ],
   "note": "matrix dimensions must fit i64; unfold_index_wraps is the proved failure otherwise"
  },
  {
   "property": "C30",
   "status": "proved",
   "theorems": [
    "Lacuna.spmv_csr_exact",
    "Lacuna.spmv_csr_correct",
    "Lacuna.spmv_csr_rejects",
    "Lacuna.spmvCsr_run_iff"
   ],
   "note": "spmv_csr_exact is law-free; spmv_csr_correct assumes exact fused multiply-add"
  },
  {
   "property": "C31",
   "status": "proved",
   "theorems": [
    "Lacuna.spmv_csc_correct",
    "Lacuna.spmv_coo_correct",
    "Lacuna.spmv_nd_correct",
    "Lacuna.spmv_nd_rejects",
    "Lacuna.spmv_formats_agree",
    "Lacuna.spmvCsc_run_iff",
    "Lacuna.spmvCoo_run_iff"
   ],
   "note": "exact arithmetic; the row count must not exceed usize::MAX (automatic)"
  },
  {
   "property": "C32",
   "status": "proved",
   "theorems": [
    "Lacuna.spmm_csr_exact",
    "Lacuna.spmm_csr_correct",
    "Lacuna.spmm_rejects",
    "Lacuna.spmm_csc_exact",
    "Lacuna.spmm_csc_correct",
    "Lacuna.spmm_coo_exact",
    "Lacuna.spmm_coo_correct",
    "Lacuna.spmm_auto_eq_csr",
    "Lacuna.spmm_auto_correct",
    "Lacuna.spmm_formats_agree",
    "Lacuna.spmm_nd_correct",
    "Lacuna.spmm_nd_no_columns",
    "Lacuna.spmm_csr_no_columns_panics",
    "Lacuna.spmm_length_check_wraps"
   ],
   "note": "Every schedule of the tiles and of the CSR to CSC conversion; bit-for-bit accumulation order where multiplication commutes. Disproved corners: k = 0 panics for CSR, the length check wraps."
  },
  {
   "property": "C33",
   "status": "proved",
   "theorems": [
    "Lacuna.tensordot_csr_correct",
    "Lacuna.tensordot_csc_correct",
    "Lacuna.tensordot_coo_correct",
    "Lacuna.tensordot_nd_correct",
    "Lacuna.tensordot_rejects",
    "Lacuna.vecdot_csr_correct",
    "Lacuna.vecdot_csc_exact",
    "Lacuna.vecdot_csc_correct",
    "Lacuna.vecdot_coo_correct",
    "Lacuna.vecdot_nan_differs",
    "Lacuna.tensordot_csr_zero_dim_panics",
    "Lacuna.tensordot_nd_collapses_axes"
   ],
   "note": "Zero-size trailing dimensions are excluded from the positive theorems (CSR panics); the N-D kernel returns the trailing axes of the dense operand collapsed into one."
  },
  {
   "property": "C34",
   "status": "proved",
   "theorems": [
    "Lacuna.sum_csr_correct",
    "Lacuna.sum_csc_correct",
    "Lacuna.sum_coo_correct",
    "Lacuna.sum_coond_correct",
    "Lacuna.sum_runs"
   ],
   "note": "exact arithmetic (commutative monoid); every reduction tree"
  },
  {
   "property": "C35",
   "status": "proved",
   "theorems": [
    "Lacuna.row_sums_csr_correct",
    "Lacuna.col_sums_csr_correct",
    "Lacuna.row_sums_csc_correct",
    "Lacuna.col_sums_csc_correct",
    "Lacuna.row_sums_coo_correct",
    "Lacuna.col_sums_coo_correct",
    "Lacuna.ranges_visit"
   ],
   "note": "exact arithmetic; dimensions at most usize::MAX (automatic)"
  },
  {
   "property": "C36",
   "status": "proved",
   "theorems": [
    "Lacuna.minmax_csr_correct",
    "Lacuna.minmax_csc_correct",
    "Lacuna.minmax_coo_correct",
    "Lacuna.row_minmax_csr_correct",
    "Lacuna.col_minmax_csc_correct",
    "Lacuna.col_minmax_csr_correct",
    "Lacuna.row_minmax_csc_correct",
    "Lacuna.row_minmax_coo_correct",
    "Lacuna.col_minmax_coo_correct",
    "Lacuna.ext_runs",
    "Lacuna.minmax_no_cells",
    "Lacuna.line_minmax_no_cells",
    "Lacuna.min_nan_is_infinity",
    "Lacuna.minmax_coo_duplicates_wrong"
   ],
   "note": "values form a linear order with two infinities (no NaN); minmax_coo_duplicates_wrong and min_nan_is_infinity are proved failures outside the hypotheses"
  },
  {
   "property": "C37",
   "status": "proved",
   "theorems": [
    "Lacuna.prod_csr_correct",
    "Lacuna.prod_csc_correct",
    "Lacuna.prod_coo_correct",
    "Lacuna.prod_coond_correct",
    "Lacuna.row_prods_csr_correct",
    "Lacuna.col_prods_csc_correct",
    "Lacuna.col_prods_csr_correct",
    "Lacuna.row_prods_csc_correct",
    "Lacuna.row_prods_coo_correct",
    "Lacuna.col_prods_coo_correct",
    "Lacuna.prod_runs",
    "Lacuna.prod_coond_runs",
    "Lacuna.prod_coo_duplicates_wrong"
   ],
   "note": "exact arithmetic (commutative semiring); prod_coo_duplicates_wrong is the proved failure for COO with repeated coordinates"
  },
  {
   "property": "C38",
   "status": "proved",
   "theorems": [
    "Lacuna.var_csr_correct",
    "Lacuna.var_csc_correct",
    "Lacuna.var_coo_correct",
    "Lacuna.var_coond_correct",
    "Lacuna.row_vars_csr_correct",
    "Lacuna.col_vars_csc_correct",
    "Lacuna.col_vars_csr_correct",
    "Lacuna.row_vars_csc_correct",
    "Lacuna.row_vars_coo_correct",
    "Lacuna.col_vars_coo_correct",
    "Lacuna.specVar_nonneg",
    "Lacuna.listVar_nonneg",
    "Lacuna.std_correct",
    "Lacuna.var_runs",
    "Lacuna.var_coond_runs",
    "Lacuna.var_coo_duplicates_wrong",
    "Lacuna.var_count_saturates"
   ],
   "note": "ordered field; at most usize::MAX cells for the global variance: var_count_saturates is the proved failure beyond, var_coo_duplicates_wrong the one for repeated coordinates"
  },
  {
   "property": "C39",
   "status": "proved",
   "theorems": [
    "Lacuna.all_any_csr_correct",
    "Lacuna.all_any_csc_correct",
    "Lacuna.row_all_any_csr_correct",
    "Lacuna.col_all_any_csc_correct",
    "Lacuna.col_all_any_csr_correct",
    "Lacuna.row_all_any_csc_correct",
    "Lacuna.all_any_coo_correct",
    "Lacuna.py_all_any_coo",
    "Lacuna.all_any_coond_correct",
    "Lacuna.all_any_coond_runs",
    "Lacuna.all_any_coond_duplicates_wrong"
   ],
   "note": "only 0 == 0 is assumed of the comparison, so NaN counts as non-zero as in the code; all_any_coond_duplicates_wrong is the proved failure for repeated N-D coordinates"
  },
  {
   "property": "C40",
   "status": "proved",
   "theorems": [
    "Lacuna.cumsum_axis1_exact",
    "Lacuna.cumsum_axis1_correct",
    "Lacuna.cumprod_axis1_exact",
    "Lacuna.cumprod_axis1_correct",
    "Lacuna.cumsum_axis0_correct",
    "Lacuna.cumprod_axis0_correct",
    "Lacuna.cumsum_csc_axis0_correct",
    "Lacuna.cumprod_csc_axis0_correct",
    "Lacuna.cumsum_csc_axis1_sorted",
    "Lacuna.cumprod_csc_axis1_sorted",
    "Lacuna.cumulative_coo_correct",
    "Lacuna.cumulative_csc_axis1_wrong",
    "Lacuna.cumprod_nan_lost"
   ],
   "note": "CSR and COO on both axes, CSC along columns: every schedule. CSC along rows is wrong for some schedules (cumulative_csc_axis1_wrong). At most usize::MAX cells."
  },
  {
   "property": "C41",
   "status": "proved",
   "theorems": [
    "Lacuna.diff_csr_axis1_correct",
    "Lacuna.diff_csr_axis1_exists",
    "Lacuna.diff_csr_axis0_correct",
    "Lacuna.diff_csr_axis0_exists",
    "Lacuna.diff_csc_axis1_correct",
    "Lacuna.diff_csc_axis0_correct",
    "Lacuna.diff_csc_exists",
    "Lacuna.diff_coo_correct"
   ],
   "note": "Exact arithmetic (additive commutative group with lawful equality), every order n, every correct unstable sort, every schedule. Results are sorted and zero-free for n >= 1 even from unsorted rows. For CSC the values are right for every schedule; the order within result columns is that of the final csr_to_csc conversion (see C24), so only WFU is guaranteed."
  },
  {
   "property": "C42",
   "status": "proved",
   "theorems": [
    "Lacuna.zeros_csr_correct",
    "Lacuna.zeros_csc_correct",
    "Lacuna.zeros_coo_correct",
    "Lacuna.diag_csr_correct",
    "Lacuna.diag_csr_val",
    "Lacuna.eye_eq_diag",
    "Lacuna.eye_csr_correct",
    "Lacuna.py_eye_correct"
   ],
   "note": "Sizes that fit in i64; the panic beyond that and the Python argument checks of eye are part of the model."
  },
  {
   "property": "C43",
   "status": "proved",
   "theorems": [
    "Lacuna.getitem_csr_correct",
    "Lacuna.getitem_csr_val",
    "Lacuna.getrow_csr_last",
    "Lacuna.getrow_csr_correct",
    "Lacuna.getrow_csr_rejects",
    "Lacuna.getcol_csr_eq",
    "Lacuna.getcol_csr_correct",
    "Lacuna.toarray_csr_last",
    "Lacuna.toarray_csr_correct",
    "Lacuna.getrow_csr_minus_one",
    "Lacuna.getrow_csr_negative",
    "Lacuna.getcol_csr_out_of_range",
    "Lacuna.getitem_csr_unsorted_wrong",
    "Lacuna.toarray_csr_duplicates_differ",
    "Lacuna.pyPos_doc",
    "Lacuna.pySlice_doc",
    "Lacuna.assignAt_error",
    "Lacuna.assignAt_value"
   ],
   "note": "In-range accesses are right for every correct searchsorted. Disproved in the code, for all matrices: a[-1,:] is always zero, a[-k,:] is row nrows+1-k, a[:,j] out of range is zero instead of an error. pyPos_doc, pySlice_doc, assignAt_error and assignAt_value compare the model of NumPy's subscripts, slices and assignments with their documentation, for all integers."
  },
  {
   "property": "C44",
   "status": "proved",
   "theorems": [
    "Lacuna.matmul_of_product",
    "Lacuna.matmul_csr_correct",
    "Lacuna.matmul_csc_correct",
    "Lacuna.matmul_coo_correct",
    "Lacuna.matmul_rejects",
    "Lacuna.matmul_csr_empty_panics"
   ],
   "note": "All batch shapes of any rank, every schedule. For CSR an empty batch panics."
  },
  {
   "property": "C45",
   "status": "proved",
   "theorems": [
    "Lacuna.ranges_increasing",
    "Lacuna.ranges_cover",
    "Lacuna.ranges_balanced",
    "Lacuna.ranges_visit"
   ],
   "note": ""
  },
  {
   "property": "C46",
   "status": "proved",
   "theorems": [
    "Lacuna.transpose_add_csr",
    "Lacuna.transpose_add_csc",
    "Lacuna.transpose_sub_csr",
    "Lacuna.transpose_sub_csc",
    "Lacuna.transpose_inter_csr",
    "Lacuna.transpose_inter_csc",
    "Lacuna.transpose_hadamard_csr",
    "Lacuna.transpose_hadamard_csc",
    "Lacuna.col_minmax_csr_correct",
    "Lacuna.row_minmax_csc_correct",
    "Lacuna.col_prods_csr_correct",
    "Lacuna.row_prods_csc_correct",
    "Lacuna.col_vars_csr_correct",
    "Lacuna.row_vars_csc_correct",
    "Lacuna.col_all_any_csr_correct"
   ],
   "note": "identical arrays, no algebraic law assumed for the algebra part"
  },
  {
   "property": "C47",
   "status": "proved",
   "theorems": [
    "Lacuna.scalar_ops_csr_stored",
    "Lacuna.scalar_ops_csc_stored",
    "Lacuna.scalar_floordiv_rem_correct",
    "Lacuna.scalar_pow_correct",
    "Lacuna.scalar_pow_zero_wrong",
    "Lacuna.scalar_floordiv_rem_csc_correct",
    "Lacuna.scalar_pow_csc_correct",
    "Lacuna.scalar_floordiv_rem_coo_correct",
    "Lacuna.scalar_pow_coo_correct",
    "Lacuna.scalar_floordiv_coo_duplicates_wrong"
   ],
   "note": "scalar_pow_zero_wrong is the proved negation for exponent 0, scalar_floordiv_coo_duplicates_wrong the one for repeated COO coordinates"
  },
  {
   "property": "C48",
   "status": "proved",
   "theorems": [
    "Lacuna.mean_coond_correct",
    "Lacuna.sum_coond_correct",
    "Lacuna.mean_coond_runs"
   ],
   "note": "field of characteristic 0"
  },
  {
   "property": "C49",
   "status": "proved",
   "theorems": [
    "Lacuna.compare_csr_correct",
    "Lacuna.compare_csc_correct",
    "Lacuna.compare_coo_correct",
    "Lacuna.compare_csr_coo_correct",
    "Lacuna.compare_coond_correct",
    "Lacuna.toarray_csc_last",
    "Lacuna.toarray_csc_correct",
    "Lacuna.toarray_coo_correct",
    "Lacuna.dense_nd_correct"
   ],
   "note": "Operands of equal shape; numpy broadcasting of different shapes is not modelled."
  },
  {
   "property": "C50",
   "status": "proved",
   "theorems": [
    "Lacuna.normalize_axes_2d",
    "Lacuna.normalize_axes_nd",
    "Lacuna.normalize_axes_nd_other"
   ],
   "note": ""
  },
  {
   "property": "C51",
   "status": "proved",
   "theorems": [
    "Lacuna.reduce2d_correct",
    "Lacuna.reduce2d_rejects",
    "Lacuna.py_sum_csr",
    "Lacuna.py_sum_csc",
    "Lacuna.py_sum_coo",
    "Lacuna.py_prod_csr",
    "Lacuna.py_prod_csc",
    "Lacuna.py_prod_coo",
    "Lacuna.py_var_csr",
    "Lacuna.py_var_csc",
    "Lacuna.py_var_coo",
    "Lacuna.py_std_of_var",
    "Lacuna.py_minmax_csr",
    "Lacuna.py_minmax_csc",
    "Lacuna.py_minmax_coo",
    "Lacuna.py_all_any_csr",
    "Lacuna.py_all_any_csc",
    "Lacuna.py_all_any_coo"
   ],
   "note": "Exact arithmetic and the kernel hypotheses of C34-C39; COO prod/var/min/max need distinct coordinates (the failures otherwise are proved under C36-C38)."
  },
  {
   "property": "C52",
   "status": "proved",
   "theorems": [
    "Lacuna.py_mean_csr",
    "Lacuna.py_mean_csc",
    "Lacuna.py_mean_coo",
    "Lacuna.py_mean_empty"
   ],
   "note": "Division ring of characteristic 0; py_mean_empty is the proved exception for empty matrices."
  },
  {
   "property": "C53",
   "status": "proved",
   "theorems": [
    "Lacuna.count_nonzero_csr",
    "Lacuna.count_nonzero_csc",
    "Lacuna.count_nonzero_coo",
    "Lacuna.count_nonzero_explicit_zero",
    "Lacuna.count_nonzero_coo_duplicates"
   ],
   "note": "The last two theorems are the proved failures outside the hypotheses."
  },
  {
   "property": "C54",
   "status": "proved",
   "theorems": [
    "Lacuna.py_sum_coond",
    "Lacuna.py_mean_coond",
    "Lacuna.py_sum_coond_none",
    "Lacuna.py_mean_coond_none",
    "Lacuna.reduceCoond_rejects",
    "Lacuna.py_coond_all_axes_panics"
   ],
   "note": "Every correct sort; shapes without overflow; mean needs at least one element. py_coond_all_axes_panics is the proved failure: an axis list naming every axis panics for every array."
  },
  {
   "property": "C55",
   "status": "proved",
   "theorems": [
    "Lacuna.add_csr_ptr",
    "Lacuna.add_csc_ptr",
    "Lacuna.sub_csr_ptr",
    "Lacuna.sub_csc_ptr",
    "Lacuna.hadamard_csr_ptr",
    "Lacuna.hadamard_csc_ptr",
    "Lacuna.div_csr_ptr",
    "Lacuna.div_csc_ptr",
    "Lacuna.floordiv_csr_ptr",
    "Lacuna.floordiv_csc_ptr",
    "Lacuna.rem_csr_ptr",
    "Lacuna.rem_csc_ptr",
    "Lacuna.pow_csr_ptr",
    "Lacuna.pow_csc_ptr",
    "Lacuna.add_csr_ptr_correct",
    "Lacuna.add_csr_unchecked_ub"
   ],
   "note": "Allocation failure not modelled. add_csr_unchecked_ub is the proved failure for a matrix accepted with check=False."
  },
  {
   "property": "C56",
   "status": "proved",
   "theorems": [
    "Lacuna.spmv_csr_ptr",
    "Lacuna.vecdot_csc_ptr",
    "Lacuna.spmv_csr_ptr_correct",
    "Lacuna.spmv_csr_unchecked_ub"
   ],
   "note": "Allocation failure not modelled. spmv_csr_unchecked_ub is the proved failure for a matrix accepted with check=False."
  },
  {
   "property": "C57",
   "status": "proved",
   "theorems": [
    "Lacuna.simd_map_ptr",
    "Lacuna.chunk_reductions_ptr",
    "Lacuna.sum_ptr",
    "Lacuna.prod_ptr",
    "Lacuna.minmax_ptr",
    "Lacuna.sums_ptr",
    "Lacuna.abs_ptr",
    "Lacuna.mul_scalar_ptr",
    "Lacuna.row_sums_csr_ptr",
    "Lacuna.col_sums_csc_ptr",
    "Lacuna.row_sums_csr_no_ub",
    "Lacuna.col_sums_csc_no_ub",
    "Lacuna.row_sums_csr_ptr_correct",
    "Lacuna.sum_ptr_correct"
   ],
   "note": "Only assumption on slices: length at most usize::MAX (automatic)."
  },
  {
   "property": "C58",
   "status": "proved",
   "theorems": [
    "Lacuna.csr_new_checked",
    "Lacuna.csc_new_checked",
    "Lacuna.csr_program_safe",
    "Lacuna.csr_program_wf",
    "Lacuna.csr_program_matvec_safe",
    "Lacuna.csc_program_safe",
    "Lacuna.csc_handle_program_safe",
    "Lacuna.csc_checked_ub",
    "Lacuna.csc_checked_ub_debug",
    "Lacuna.csc_abs_ub",
    "Lacuna.jump_csr_raises"
   ],
   "note": "Native core present, arrays contiguous and not modified after construction; array sizes bounded by the address space (Mem). csc_checked_ub, csc_checked_ub_debug and csc_abs_ub are the proved failures."
  },
  {
   "property": "C59",
   "status": "proved",
   "theorems": [
    "Lacuna.csr_to_csc_ptr",
    "Lacuna.csc_to_csr_ptr",
    "Lacuna.csr_to_csc_ptr_wide",
    "Lacuna.csc_to_csr_ptr_tall",
    "Lacuna.csr_to_coo_ptr",
    "Lacuna.csc_to_coo_ptr",
    "Lacuna.csr_to_csc_ptr_correct",
    "Lacuna.csc_to_csr_ptr_correct",
    "Lacuna.csr_to_csc_ptr_exists",
    "Lacuna.csr_to_coo_ub",
    "Lacuna.csr_to_csc_overlap_ub",
    "Lacuna.csc_to_csr_overlap_ub",
    "Lacuna.csc_to_coo_past_end"
   ],
   "note": "Allocation failure below isize::MAX bytes not modelled; relaxed fetch_add on one counter is atomic. The *_ub and past_end theorems are the proved failures for matrices accepted with check=False."
  },
  {
   "property": "C60",
   "status": "proved",
   "theorems": [
    "Lacuna.transpose_csr_ptr",
    "Lacuna.transpose_csc_ptr",
    "Lacuna.transpose_csr_ptr_correct",
    "Lacuna.transpose_csc_ptr_correct",
    "Lacuna.transpose_csr_ptr_exists",
    "Lacuna.transpose_csc_ptr_exists",
    "Lacuna.transpose_csr_ptr_wide",
    "Lacuna.transpose_csr_outside_ub",
    "Lacuna.transpose_csc_outside_ub",
    "Lacuna.transpose_csr_outside_panics"
   ],
   "note": "Fewer than 2^59 stored entries (the pair buffer of strategy B has 16 bytes per entry). The outer vectors of one element per tile are not modelled. The outside_* theorems are the proved failures for matrices accepted with check=False."
  },
  {
   "property": "C61",
   "status": "proved",
   "theorems": [
    "Lacuna.prune_csr_ptr",
    "Lacuna.prune_csc_ptr",
    "Lacuna.prune_csr_ptr_correct",
    "Lacuna.prune_csc_ptr_correct",
    "Lacuna.prune_csr_any_pointers",
    "Lacuna.prune_csc_any_pointers",
    "Lacuna.prunePtr_surplus",
    "Lacuna.prune_csr_surplus_ub",
    "Lacuna.prunePtr_short_ub"
   ],
   "note": "Allocation failure below isize::MAX bytes not modelled. prunePtr_surplus, prune_csr_surplus_ub and prunePtr_short_ub are the proved failures for matrices accepted with check=False."
  },
  {
   "property": "C62",
   "status": "proved",
   "theorems": [
    "Lacuna.reshape_ptr_any",
    "Lacuna.reshape_ptr_release",
    "Lacuna.reshape_ptr_correct",
    "Lacuna.reshape_size_debug",
    "Lacuna.reshape_size_wraps",
    "Lacuna.unfold_ptr_any",
    "Lacuna.unfold_ptr_release",
    "Lacuna.unfold_ptr_correct",
    "Lacuna.py_reshape_safe",
    "Lacuna.py_reshape_wraps",
    "Lacuna.py_unfold_safe",
    "Lacuna.unfold_short_ub"
   ],
   "note": "Allocation failure below isize::MAX bytes and the allocation of vectors no longer than the shape not modelled. reshape_size_wraps / py_reshape_wraps are the proved failure (wrapped buffer size)."
  },
  {
   "property": "C63",
   "status": "proved",
   "theorems": [
    "Lacuna.cumsum_axis1_ptr",
    "Lacuna.cumprod_axis1_ptr",
    "Lacuna.cumsum_axis1_ptr_correct",
    "Lacuna.cumprod_axis1_ptr_correct",
    "Lacuna.cumsum_axis0_ptr",
    "Lacuna.cumprod_axis0_ptr",
    "Lacuna.cumsum_axis0_ptr_correct",
    "Lacuna.cumprod_axis0_ptr_correct",
    "Lacuna.cum_axis1_big",
    "Lacuna.cum_size_debug",
    "Lacuna.cumsum_size_wraps",
    "Lacuna.cumprod_size_wraps",
    "Lacuna.cumsum_outside_ub"
   ],
   "note": "Allocation failure below isize::MAX bytes not modelled. The *_wraps and *_outside_ub theorems are the proved failures."
  },
  {
   "property": "C64",
   "status": "proved",
   "theorems": [
    "Lacuna.diff_csr_axis1_ptr_any",
    "Lacuna.diff_csr_axis1_ptr",
    "Lacuna.diff_csr_axis1_ptr_correct",
    "Lacuna.diff_csr_axis0_ptr",
    "Lacuna.diff_csr_axis0_ptr_correct",
    "Lacuna.diff_csc_axis1_ptr",
    "Lacuna.diff_csc_axis0_ptr",
    "Lacuna.diff_csc_ptr_correct",
    "Lacuna.diff_past_end_ub"
   ],
   "note": "Allocation failure below isize::MAX bytes not modelled; 32 bytes per matrix cell must be addressable for the no-panic part. diff_past_end_ub is the proved failure for matrices accepted with check=False."
  },
  {
   "property": "C65",
   "status": "proved",
   "theorems": [
    "Lacuna.hmap_insert_no_ub",
    "Lacuna.hmap_drain_exact",
    "Lacuna.col_sums_ptr",
    "Lacuna.col_sums_ptr_correct",
    "Lacuna.col_sums_no_ub",
    "Lacuna.col_sums_ub",
    "Lacuna.row_sums_csc_ptr",
    "Lacuna.row_sums_csc_ptr_correct",
    "Lacuna.row_sums_csc_no_ub",
    "Lacuna.row_sums_csc_ub",
    "Lacuna.row_sums_coo_ptr",
    "Lacuna.row_sums_coo_ptr_correct",
    "Lacuna.row_sums_coo_no_ub",
    "Lacuna.row_sums_coo_ub",
    "Lacuna.col_sums_coo_ptr",
    "Lacuna.col_sums_coo_ptr_correct",
    "Lacuna.col_sums_coo_no_ub",
    "Lacuna.col_sums_coo_ub",
    "Lacuna.spmv_csc_ptr",
    "Lacuna.spmv_csc_ptr_correct",
    "Lacuna.spmv_csc_no_ub",
    "Lacuna.spmv_csc_ub",
    "Lacuna.spmv_coo_ptr",
    "Lacuna.spmv_coo_ptr_correct",
    "Lacuna.spmv_coo_no_ub",
    "Lacuna.spmv_coo_ub",
    "Lacuna.vecdot_csr_ptr",
    "Lacuna.vecdot_csr_ptr_correct",
    "Lacuna.vecdot_csr_no_ub",
    "Lacuna.vecdot_coo_ptr",
    "Lacuna.vecdot_coo_ptr_correct",
    "Lacuna.vecdot_coo_no_ub",
    "Lacuna.vecdot_coo_ub"
   ],
   "note": "Fewer than 2^63/24 stored entries for the no-panic part (the growing hash table must be addressable). The *_ub theorems are the proved failures for matrices accepted with check=False."
  },
  {
   "property": "C66",
   "status": "proved",
   "theorems": [
    "Lacuna.spmm_csr_ptr",
    "Lacuna.spmm_csc_ptr",
    "Lacuna.spmm_coo_ptr",
    "Lacuna.spmm_auto_ptr",
    "Lacuna.spmm_csr_ptr_correct",
    "Lacuna.spmm_csc_ptr_correct",
    "Lacuna.spmm_coo_ptr_correct",
    "Lacuna.spmm_auto_ptr_correct",
    "Lacuna.spmm_ptr_rejects",
    "Lacuna.spmm_ptr_no_columns",
    "Lacuna.spmm_csr_no_ub",
    "Lacuna.spmm_csc_no_ub",
    "Lacuna.spmm_coo_no_ub",
    "Lacuna.spmm_csr_ub",
    "Lacuna.spmm_csc_ub",
    "Lacuna.spmm_coo_ub",
    "Lacuna.spmm_csc_size_wraps",
    "Lacuna.spmm_coo_size_wraps"
   ],
   "note": "k > 0 for CSR (par_chunks_mut(0) panics, see C32). Allocation failure below isize::MAX bytes not modelled. The *_ub and *_size_wraps theorems are the proved failures."
  },
  {
   "property": "C67",
   "status": "proved",
   "theorems": [
    "Lacuna.add_nd_no_ub",
    "Lacuna.sub_nd_no_ub",
    "Lacuna.hadamard_nd_no_ub",
    "Lacuna.reduce_sum_nd_no_ub",
    "Lacuna.spmv_nd_no_ub",
    "Lacuna.union_nd_ptr",
    "Lacuna.add_nd_ptr",
    "Lacuna.sub_nd_ptr",
    "Lacuna.hadamard_nd_ptr",
    "Lacuna.reduce_sum_nd_ptr",
    "Lacuna.reduce_sum_nd_ptr_correct",
    "Lacuna.spmv_nd_ptr",
    "Lacuna.spmv_nd_ptr_correct",
    "Lacuna.nd_shape_mismatch_panics",
    "Lacuna.reduce_sum_nd_rejects",
    "Lacuna.spmv_nd_ptr_rejects",
    "Lacuna.add_nd_last_cell_panics"
   ],
   "note": "Fewer than 2^63/24 stored entries for the no-panic part (the growing hash table must be addressable); allocation failure below isize::MAX bytes and vectors no longer than the shape not modelled. add_nd_last_cell_panics with add_coond_last_cell_lost is the proved failure."
  },
  {
   "property": "C68",
   "status": "proved",
   "theorems": [
    "Lacuna.spmm_nd_no_ub",
    "Lacuna.spmm_nd_ptr",
    "Lacuna.spmm_nd_ptr_correct",
    "Lacuna.spmm_nd_ptr_rejects",
    "Lacuna.spmm_nd_ptr_no_columns",
    "Lacuna.tensordot_nd_no_ub",
    "Lacuna.py_tensordot_nd_safe",
    "Lacuna.tensordot_nd_ptr_correct",
    "Lacuna.spmm_nd_first_ub",
    "Lacuna.spmm_nd_ub",
    "Lacuna.spmm_nd_size_wraps"
   ],
   "note": "Fewer than 2^63/24 products for the no-panic part. spmm_nd_ub (check=False) and spmm_nd_size_wraps are the proved failures; the latter needs a direct call of the Rust kernel, the Python entry point checks the product."
  },
  {
   "property": "C69",
   "status": "proved",
   "theorems": [
    "Lacuna.broadcast_no_ub",
    "Lacuna.py_broadcast_safe",
    "Lacuna.broadcast_ptr",
    "Lacuna.broadcast_ptr_correct",
    "Lacuna.broadcast_ptr_incompatible",
    "Lacuna.broadcast_size_wraps",
    "Lacuna.py_broadcast_wraps"
   ],
   "note": "Allocation of the small vectors and std hash maps not modelled. broadcast_size_wraps and py_broadcast_wraps are the proved failures (wrapped buffer size, valid arguments with check=True)."
  },
  {
   "property": "C70",
   "status": "proved",
   "theorems": [
    "Lacuna.sum_terms",
    "Lacuna.row_sums_csr_terms",
    "Lacuna.col_sums_csr_terms",
    "Lacuna.row_sums_csc_terms",
    "Lacuna.col_sums_csc_terms",
    "Lacuna.row_sums_coo_terms",
    "Lacuna.col_sums_coo_terms",
    "Lacuna.sum_error",
    "Lacuna.row_sums_csr_error",
    "Lacuna.col_sums_csr_error",
    "Lacuna.row_sums_csc_error",
    "Lacuna.col_sums_csc_error",
    "Lacuna.row_sums_coo_error",
    "Lacuna.col_sums_coo_error",
    "Lacuna.rounded_sum_gamma",
    "Lacuna.sum_exact",
    "Lacuna.row_sums_csr_exact",
    "Lacuna.col_sums_csr_exact",
    "Lacuna.row_sums_csc_exact",
    "Lacuna.col_sums_csc_exact",
    "Lacuna.row_sums_coo_exact",
    "Lacuna.col_sums_coo_exact",
    "Lacuna.col_sums_csr_runs",
    "Lacuna.row_sums_csc_runs",
    "Lacuna.row_sums_coo_runs",
    "Lacuna.col_sums_coo_runs",
    "Lacuna.sum_not_reproducible"
   ],
   "note": "Generic over any arithmetic with relative error eps for addition (FpAdd); B64.fp is the instance for binary64, with infinities and NaNs identified in one element and the two zeros identified. sum_not_reproducible is a proved negative result."
  },
  {
   "property": "C71",
   "status": "proved",
   "theorems": [
    "Lacuna.spmv_csc_terms",
    "Lacuna.spmv_coo_terms",
    "Lacuna.vecdot_csr_terms",
    "Lacuna.vecdot_coo_terms",
    "Lacuna.spmm_csr_terms",
    "Lacuna.spmm_csc_terms",
    "Lacuna.spmm_coo_terms",
    "Lacuna.spmv_csr_error",
    "Lacuna.spmv_csc_error",
    "Lacuna.spmv_coo_error",
    "Lacuna.vecdot_csr_error",
    "Lacuna.vecdot_csc_error",
    "Lacuna.vecdot_coo_error",
    "Lacuna.spmm_csr_error",
    "Lacuna.spmm_csc_error",
    "Lacuna.spmm_coo_error",
    "Lacuna.spmm_auto_error",
    "Lacuna.spmv_csr_unit",
    "Lacuna.spmv_csc_unit",
    "Lacuna.spmv_coo_unit",
    "Lacuna.vecdot_csr_unit",
    "Lacuna.vecdot_csc_unit",
    "Lacuna.vecdot_coo_unit",
    "Lacuna.spmm_csr_unit",
    "Lacuna.spmm_csc_unit",
    "Lacuna.spmm_coo_unit",
    "Lacuna.spmv_csc_runs",
    "Lacuna.spmv_coo_runs",
    "Lacuna.vecdot_csr_runs",
    "Lacuna.vecdot_coo_runs",
    "Lacuna.vecdot_special_disagree"
   ],
   "note": "k > 0 for the CSR matrix-matrix product. Completion of the CSR matrix-vector product and of the matrix-matrix products in any (commutative-product) arithmetic is C30 and C32 (spmv_csr_exact, spmm_*_exact)."
  },
  {
   "property": "C72",
   "status": "proved",
   "theorems": [
    "Lacuna.py_new_valid",
    "Lacuna.py_new_invalid",
    "Lacuna.py_matmul_vec_correct",
    "Lacuna.py_matmul_mat_correct",
    "Lacuna.py_matmul_batch_correct",
    "Lacuna.py_tensordot_correct",
    "Lacuna.py_tensordot_vec_correct",
    "Lacuna.py_vecdot_correct",
    "Lacuna.py_matmul_rejects",
    "Lacuna.py_tensordot_rejects",
    "Lacuna.py_vecdot_rejects",
    "Lacuna.py_tensordot_ignores_axes",
    "Lacuna.py_tensordot_empty",
    "Lacuna.py_linalg_no_ub",
    "Lacuna.py_tensordot_coo_ub",
    "Lacuna.py_tensordot_csc_ub",
    "Lacuna.py_vecdot_coo_ub",
    "Lacuna.pyNd_new_any",
    "Lacuna.py_tensordot_nd_correct",
    "Lacuna.py_tensordot_nd_rank",
    "Lacuna.py_vecdot_nd_correct",
    "Lacuna.py_linalg_nd_no_ub",
    "Lacuna.py_vecdot_nd_one_axis",
    "Lacuna.py_tensordot_nd_negative",
    "Lacuna.py_tensordot_nd_ub"
   ],
   "note": "Values in exact commutative arithmetic; sizes such that the dense operand and the result fit into memory. The sort used by the N-D kernels is any sort by key."
  },
  {
   "property": "C73",
   "status": "proved",
   "theorems": [
    "Lacuna.prog_sound",
    "Lacuna.prog_unique",
    "Lacuna.prog_profile",
    "Lacuna.prog_safe",
    "Lacuna.mode_unfold_shape",
    "Lacuna.documented_broadcast_panics",
    "Lacuna.coond_default_ub"
   ],
   "note": "Scalars are Python floats; native core present, arrays contiguous and not modified after construction; sizes bounded by memory (Prog.Small; N-D shapes non-empty with at most i64::MAX cells). The numbers of threads and the unspecified orders are the same at every step; C101 lets them change from call to call. documented_broadcast_panics, mode_unfold_shape and coond_default_ub are proved disagreements with the documentation."
  },
  {
   "property": "C74",
   "status": "proved",
   "theorems": [
    "Lacuna.prog_correct",
    "Lacuna.prog_distinct",
    "Lacuna.prog_equiv",
    "Lacuna.transpose_add_equiv",
    "Lacuna.abs_duplicates",
    "Lacuna.sparse_pow_storage"
   ],
   "note": "Exact ordered-field arithmetic (floor = mathematical floor, every value finite); same hypotheses on literals and sizes as C73. Division, floor division and remainder of two sparse operands are 0 where the divisor is 0. abs_duplicates and sparse_pow_storage show why duplicates under nonlinear functions and sparse powers are excluded."
  },
  {
   "property": "C75",
   "status": "proved",
   "theorems": [
    "Lacuna.line_reductions_ptr",
    "Lacuna.line_reductions_no_ub",
    "Lacuna.col_reductions_csr_ptr",
    "Lacuna.row_reductions_csc_ptr",
    "Lacuna.row_logic_csc_ptr",
    "Lacuna.prods_csr_ptr_correct",
    "Lacuna.prods_csc_ptr_correct",
    "Lacuna.vars_csr_ptr_correct",
    "Lacuna.vars_csc_ptr_correct",
    "Lacuna.exts_csr_ptr_correct",
    "Lacuna.exts_csc_ptr_correct",
    "Lacuna.logic_csr_ptr_correct",
    "Lacuna.logic_csc_ptr_correct",
    "Lacuna.col_reductions_outside_ub",
    "Lacuna.row_reductions_outside_ub",
    "Lacuna.row_logic_overlap_ub"
   ],
   "note": "The standard deviations are the square roots of the variances (C38). Minima and maxima are claimed against the dense lines for matrices with cells and values in a linear order (C36). For matrices that store a position twice the transposition itself loses entries (C28), so the kernels across the lines are claimed only without repetitions; all and any of CSC rows go through the conversion and need no such hypothesis."
  },
  {
   "property": "C76",
   "status": "proved",
   "theorems": [
    "Lacuna.py_reduce",
    "Lacuna.py_minmax",
    "Lacuna.py_logic",
    "Lacuna.py_reduce_rejects",
    "Lacuna.py_mean_no_cells",
    "Lacuna.py_nd_unsupported",
    "Lacuna.py_nd_rejects",
    "Lacuna.py_nd_all_axes",
    "Lacuna.py_nd_reduce_all",
    "Lacuna.py_nd_reduce_axes",
    "Lacuna.prog_reduce_raises",
    "Lacuna.prog_reduce",
    "Lacuna.prog_logic",
    "Lacuna.py_minmax_within",
    "Lacuna.prog_minmax",
    "Lacuna.prog_nd_reduce_all",
    "Lacuna.prog_nd_reduce_axes"
   ],
   "note": "Exact arithmetic: an ordered field for sum, mean, prod, var, std (with an exact square root for std), a linear order with the two infinities for min and max of objects (for programs, and in py_minmax_within, the start values of the loops need only bound the cells, since a field has no infinities), any commutative addition for all and any. Reductions of COO other than sum, mean, all and any need distinct coordinates. That the bindings reject a tuple shape with TypeError is an assumption about rust-numpy, recorded at tupleShape; py_nd_unsupported, py_nd_all_axes and py_mean_no_cells are disagreements with the array API."
  },
  {
   "property": "C77",
   "status": "proved",
   "theorems": [
    "Lacuna.py_scan",
    "Lacuna.py_scan_csc_rows",
    "Lacuna.py_scan_rejects",
    "Lacuna.py_scan_csc_wrong",
    "Lacuna.py_scan_size_wraps",
    "Lacuna.py_diff",
    "Lacuna.py_diff_rejects",
    "Lacuna.py_diff_csc_unsorted",
    "Lacuna.py_count",
    "Lacuna.py_count_wrong",
    "Lacuna.prog_scan_raises",
    "Lacuna.prog_scan",
    "Lacuna.prog_diff",
    "Lacuna.prog_count"
   ],
   "note": "cumsum and cumprod over any semiring, diff over any abelian group with exact equality, programs over an exact ordered field. The dense result must fit into memory (8 bytes per cell; 32 for the work arrays of diff). What ndarray's from_shape_vec checks is an assumption, recorded at scanArray; count_nonzero of a COOND goes to NumPy unguarded and is not modelled."
  },
  {
   "property": "C78",
   "status": "proved",
   "theorems": [
    "Lacuna.py_linalg",
    "Lacuna.py_linalg_raises",
    "Lacuna.py_linalg_nd_raises",
    "Lacuna.py_linalg_sparse_right",
    "Lacuna.linFn_error_none",
    "Lacuna.linFn_ndError_none",
    "Lacuna.py_tensordot_nd",
    "Lacuna.py_vecdot_nd",
    "Lacuna.prog_linalg_raises",
    "Lacuna.prog_linalg_safe",
    "Lacuna.prog_linalg",
    "Lacuna.prog_tensordot_nd",
    "Lacuna.prog_vecdot_nd"
   ],
   "note": "Values over any commutative semiring for objects, an exact ordered field for programs. The dense operand must not have an empty axis besides the contracted one (py_tensordot_empty of C72) and the result must fit into memory. Two dense operands go to NumPy and are not modelled."
  },
  {
   "property": "C79",
   "status": "proved",
   "theorems": [
    "Lacuna.prog_bits",
    "Lacuna.stores_determine",
    "Lacuna.prog_bits_equiv",
    "Lacuna.prog_reproducible",
    "Lacuna.transpose_twice_bits",
    "Lacuna.transpose_bin_bits",
    "Lacuna.prune_twice_bits",
    "Lacuna.reshape_twice_bits",
    "Lacuna.unfold_duplicates_machine",
    "Lacuna.eliminate_zeros_nan"
   ],
   "note": "No algebraic law assumed; hypotheses on literals and sizes as in C73. The array operations are taken to be deterministic functions of their operands (one NaN payload per operation), as the typeclass operations are. unfold_duplicates_machine and eliminate_zeros_nan are the proved exceptions."
  },
  {
   "property": "C80",
   "status": "proved",
   "theorems": [
    "Lacuna.prog_toarray",
    "Lacuna.prog_nnz",
    "Lacuna.prog_getitem",
    "Lacuna.prog_compare",
    "Lacuna.read_reproducible",
    "Lacuna.getitem_toarray",
    "Lacuna.transpose_dense",
    "Lacuna.prog_toarray_exact",
    "Lacuna.prog_getitem_exact",
    "Lacuna.prog_compare_exact",
    "Lacuna.prog_equal_iff"
   ],
   "note": "Hypotheses on the programs as in C79 (machine arithmetic) or C74 (exact arithmetic). NumPy is modelled by its documentation (subscripts, assignment through index arrays, searchsorted, broadcasting by strides); a failing allocation of the dense array is not modelled; a comparison of two dense arrays is left to NumPy."
  },
  {
   "property": "C81",
   "status": "proved",
   "theorems": [
    "Lacuna.session_valid",
    "Lacuna.session_total",
    "Lacuna.session_made",
    "Lacuna.session_names",
    "Lacuna.session_frame",
    "Lacuna.session_write",
    "Lacuna.session_fresh",
    "Lacuna.session_unwritten",
    "Lacuna.session_ask",
    "Lacuna.session_stale",
    "Lacuna.frozen_immune",
    "Lacuna.session_exact",
    "Lacuna.session_lit_cells",
    "Lacuna.stale_disagree",
    "Lacuna.index_write_ub",
    "Lacuna.index_write_ub_debug"
   ],
   "note": "Sessions of constructor calls, calls and whole-array writes on arrays of the right type; attributes are not rebound. Constructor arguments and sizes as in C73; writes to index arrays only in frozen_immune and index_write_ub. count_nonzero of a COOND is left open as in C77. stale_disagree and index_write_ub are the proved exceptions."
  },
  {
   "property": "C82",
   "status": "proved",
   "theorems": [
    "Lacuna.py_reduce_any",
    "Lacuna.py_logic_any",
    "Lacuna.py_nd_reduce_any",
    "Lacuna.py_prod_sparse",
    "Lacuna.prog_reduce_any",
    "Lacuna.prog_logic_any",
    "Lacuna.prog_nd_reduce_any",
    "Lacuna.prog_sum_rounded",
    "Lacuna.prog_sum_nan",
    "Lacuna.prog_min_mem"
   ],
   "note": "No algebraic law assumed. mean over all axes needs the number of cells not to be zero as a float (otherwise ZeroDivisionError, C76). Programs as in C79. COOND over some axes returns a COOND whose stored entries are C79. py_prod_sparse is a disagreement with NumPy where a NaN or an infinity is stored."
  },
  {
   "property": "C83",
   "status": "proved",
   "theorems": [
    "Lacuna.term_sound",
    "Lacuna.term_returns",
    "Lacuna.operator_obj_error",
    "Lacuna.operator_obj_ok",
    "Lacuna.operator_num_ok",
    "Lacuna.operator_num_missing",
    "Lacuna.operator_str_bad",
    "Lacuna.operator_str",
    "Lacuna.left_operator",
    "Lacuna.operator_differs",
    "Lacuna.operator_mixed",
    "Lacuna.operator_mul_order",
    "Lacuna.named_method_unknown",
    "Lacuna.named_method_known"
   ],
   "note": "Left operands that are sparse, or a plain number (a NumPy array or scalar on the left has its own special methods and is not modelled). Hypotheses on literals and sizes as in C73. operator_differs, operator_mixed and named_method_unknown are disagreements with the functions and the documentation."
  },
  {
   "property": "C84",
   "status": "proved",
   "theorems": [
    "Lacuna.guard_passes_iff",
    "Lacuna.stubs_forward",
    "Lacuna.stubs_faithful",
    "Lacuna.stub_sparse",
    "Lacuna.stub_dense",
    "Lacuna.stack_leaks",
    "Lacuna.dispatch1_leaks",
    "Lacuna.dispatch1_refuses",
    "Lacuna.dispatch1_dense",
    "Lacuna.dispatch2_numpy",
    "Lacuna.dispatch2_arith",
    "Lacuna.dispatch2_arith_dense",
    "Lacuna.dispatch2_lin",
    "Lacuna.dispatch2_compare",
    "Lacuna.public_names",
    "Lacuna.capabilities_exact"
   ],
   "note": "The stubs and the names are a table read off the source, so stubs_forward, stubs_faithful, public_names, dispatch1_leaks and dispatch1_refuses are statements about that finite table; the quantification over arguments, keywords and NumPy's attributes is universal. stack_leaks, dispatch1_leaks and capabilities_exact record disagreements."
  },
  {
   "property": "C85",
   "status": "proved",
   "theorems": [
    "Lacuna.promote_lub",
    "Lacuna.promote_unknown",
    "Lacuna.promote_comm",
    "Lacuna.promote_assoc",
    "Lacuna.promote_size",
    "Lacuna.dtypeSize_known",
    "Lacuna.promote_unsigned",
    "Lacuna.promote_int32_float32",
    "Lacuna.devices",
    "Lacuna.create_device",
    "Lacuna.astype_outcome",
    "Lacuna.threads_pos",
    "Lacuna.threads_get_set",
    "Lacuna.threads_set_nonpos",
    "Lacuna.threads_before",
    "Lacuna.threads_after",
    "Lacuna.threads_disagree"
   ],
   "note": "Rayon's global pool as documented: created at the first parallel call from RAYON_NUM_THREADS or the available cores, never resized. promote_unsigned, promote_int32_float32 and threads_disagree are disagreements with what one would expect."
  },
  {
   "property": "C86",
   "status": "proved",
   "theorems": [
    "Lacuna.py_linalg_any",
    "Lacuna.py_linalg_bits",
    "Lacuna.py_linalg_formats",
    "Lacuna.prog_linalg_any",
    "Lacuna.prog_linalg_bits",
    "Lacuna.py_linalg_error",
    "Lacuna.py_linalg_unit",
    "Lacuna.py_linalg_nan",
    "Lacuna.py_vecdot_classes_disagree"
   ],
   "note": "Only commutativity of the product is assumed (up to the payload of NaNs, which the model does not distinguish). Hypotheses on the dense operand and sizes as in C78, on programs as in C79. COOND operands are C78. py_vecdot_classes_disagree is a disagreement between the classes."
  },
  {
   "property": "C87",
   "status": "proved",
   "theorems": [
    "Lacuna.py_scan_any",
    "Lacuna.py_scan_csc_rows_any",
    "Lacuna.py_scan_once",
    "Lacuna.py_cumprod_gap",
    "Lacuna.prog_scan_any",
    "Lacuna.prog_cumsum_rounded",
    "Lacuna.prog_cumsum_nan",
    "Lacuna.py_diff_safe",
    "Lacuna.py_diff_any",
    "Lacuna.py_diff_dense",
    "Lacuna.prog_diff_any"
   ],
   "note": "No algebraic law assumed, except a commutative addition in py_diff_any and prog_diff_any and SubLaws (laws of IEEE subtraction up to signed zeros and NaN payloads) in py_diff_dense. Sizes as in C77, programs as in C79; a CSC matrix scanned along the rows must store at most one entry per row (otherwise the kernels race, C77). py_cumprod_gap is a disagreement with the dense product where a NaN or an infinity is stored."
  },
  {
   "property": "C88",
   "status": "proved",
   "theorems": [
    "Lacuna.f64_nearest",
    "Lacuna.f64_numpy",
    "Lacuna.f64_toarray",
    "Lacuna.f64_sum",
    "Lacuna.f64_sum_nan",
    "Lacuna.f64_mean",
    "Lacuna.f64_var",
    "Lacuna.f64_cumsum",
    "Lacuna.f64_diff",
    "Lacuna.f64_linalg",
    "Lacuna.f64_negative",
    "Lacuna.f64_sign",
    "Lacuna.f64_reduce_runs"
   ],
   "note": "F64 (Model/F64) is IEEE binary64 with one NaN; powf, min and max are left open. The fragment with NumPy's elements is Prog.AsNumpy; outside it the kernels leave IEEE 754 (missing entry times infinity, division through the reciprocal, dropped non-finite quotients). The larger fragment Prog.AsDense is that whose elements depend on the elements of the operands only (Prog.dense). f64_mean needs at least one and at most 2^53 elements; f64_cumsum excludes CSC along the rows and f64_cumsum, f64_diff, f64_linalg assume results that fit in memory, as C86 and C87."
  },
  {
   "property": "C89",
   "status": "proved",
   "theorems": [
    "Lacuna.int_toarray",
    "Lacuna.int_sum",
    "Lacuna.int_prod",
    "Lacuna.int_cumsum",
    "Lacuna.int_diff",
    "Lacuna.int_linalg"
   ],
   "note": "Binary64 as in C88. Programs with true division and powers are outside Prog.Int53; floor divisions, remainders, prune and eliminate_zeros are inside; the reductions are for all programs of C88 whose elements are whole numbers. Sizes and the exclusion of cumsum along the rows of CSC as in C88."
  },
  {
   "property": "C90",
   "status": "proved",
   "theorems": [
    "Lacuna.f64_div_error",
    "Lacuna.f64_floordiv",
    "Lacuna.int_floordiv",
    "Lacuna.int_remainder",
    "Lacuna.div_not_nearest",
    "Lacuna.div_tiny",
    "Lacuna.nan_lost",
    "Lacuna.floordiv_tenth",
    "Lacuna.rem_negative",
    "Lacuna.infinity_lost"
   ],
   "note": "Binary64 as in C88; the operand is a program of C88 and the operation by a number is the last one. div_not_nearest, div_tiny, nan_lost, infinity_lost, floordiv_tenth and rem_negative are the proved disagreements with NumPy."
  },
  {
   "property": "C91",
   "status": "proved",
   "theorems": [
    "Lacuna.f64_var_error",
    "Lacuna.elems_var_error",
    "Lacuna.var_cancels"
   ],
   "note": "Binary64 as in C88. The correction is a whole number; for others only that the variance is not negative is proved (C88). That NumPy subtracts the mean first is its documentation. var_cancels is a disagreement with NumPy."
  },
  {
   "property": "C92",
   "status": "proved",
   "theorems": [
    "Lacuna.f64_rounds",
    "Lacuna.f64_rounds_unique",
    "Lacuna.f64_signs",
    "Lacuna.f64_floor",
    "Lacuna.f64_sqrt_nearest",
    "Lacuna.f64_std_nearest",
    "Lacuna.f64_nan_iff",
    "Lacuna.f64_infinite",
    "Lacuna.f64_order"
   ],
   "note": "About the model of f64 (Model/F64), which stands for the hardware and Rust's documentation. Rounds (Spec/F64Round) is stated without an algorithm and f64_rounds_unique shows that it fixes the result."
  },
  {
   "property": "C93",
   "status": "proved",
   "theorems": [
    "Lacuna.matmul_layout",
    "Lacuna.matmul_strided_raises",
    "Lacuna.matmul_layout_safe",
    "Lacuna.tensordot_layout",
    "Lacuna.tensordot_int_raises",
    "Lacuna.tensordot_strided_raises",
    "Lacuna.tensordot_layout_safe",
    "Lacuna.vecdot_layout",
    "Lacuna.vecdot_int",
    "Lacuna.vecdot_strided_raises",
    "Lacuna.vecdot_layout_safe",
    "Lacuna.tensordotNd_layout",
    "Lacuna.tensordotNd_int_raises",
    "Lacuna.tensordotNd_layout_safe",
    "Lacuna.vecdotNd_layout",
    "Lacuna.vecdotNd_int_raises",
    "Lacuna.vecdotNd_layout_safe",
    "Lacuna.new_layout",
    "Lacuna.new_csr_strided",
    "Lacuna.new_strided",
    "Lacuna.newNd_matrix_indices",
    "Lacuna.newNd_layout",
    "Lacuna.fortran_slice",
    "Lacuna.PySp.new_handleOk"
   ],
   "note": "NumPy views (shape, strides, offset), contiguity flags, reshape(-1) and rust-numpy's as_slice and PyReadonlyArray by their documentation; strides are multiples of the element size. HandleOk (no native copy only if the arrays are refused) is proved for every constructor call. The values an astype gives are not modelled. The *_raises theorems, new_strided and newNd_matrix_indices are disagreements with NumPy."
  },
  {
   "property": "C94",
   "status": "proved",
   "theorems": [
    "Lacuna.f64_quotient",
    "Lacuna.f64_quotient_zero",
    "Lacuna.f64_divide_nearest",
    "Lacuna.f64_floor_divide",
    "Lacuna.int_toarray"
   ],
   "note": "Binary64 as in C88; the operands are programs of C88 over CSR and CSC (Prog.AsDense). Exactness for whole numbers is int_toarray of C89, whose programs now contain // and %. f64_quotient_zero is a disagreement with NumPy, which has infinities and NaN there; NumPy's own floor_divide and remainder use another algorithm (fmod), see C90."
  },
  {
   "property": "C95",
   "status": "proved",
   "theorems": [
    "Lacuna.f64_min",
    "Lacuna.f64_max",
    "Lacuna.f64_prod",
    "Lacuna.f64_cumprod",
    "Lacuna.f64_logic",
    "Lacuna.f64_compare",
    "Lacuna.f64_count",
    "Lacuna.py_count_any",
    "Lacuna.prog_count_any"
   ],
   "note": "Binary64 as in C88; the programs are those of C88 over CSR and CSC (Prog.AsDense); py_count_any and prog_count_any are for all three 2-D classes and any arithmetic. F64.MinMaxOk is an assumption on f64::min, f64::max and their vector forms, for numbers that are not NaN only; exMinMax_ok shows that it can be met. Where prod meets a NaN or an infinity and an empty cell it is 0 (C82, py_prod_sparse). That NumPy multiplies from the first to the last in cumprod is its documentation."
  },
  {
   "property": "C96",
   "status": "proved",
   "theorems": [
    "Lacuna.f64_elems",
    "Lacuna.elems_toarray",
    "Lacuna.elems_entries",
    "Lacuna.elems_sum",
    "Lacuna.elems_sum_nan",
    "Lacuna.elems_mean",
    "Lacuna.elems_reduce_runs",
    "Lacuna.elems_var",
    "Lacuna.elems_min",
    "Lacuna.elems_max",
    "Lacuna.elems_prod",
    "Lacuna.elems_cumsum",
    "Lacuna.elems_cumprod",
    "Lacuna.elems_diff",
    "Lacuna.elems_logic",
    "Lacuna.elems_count",
    "Lacuna.elems_linalg",
    "Lacuna.elems_compare",
    "Lacuna.elems_nd_sum",
    "Lacuna.elems_nd_mean"
   ],
   "note": "Binary64 as in C88, the elements are Prog.elems (Spec/F64Nd), the conditions Prog.AsElems. Axis sums and means of N-D arrays inside a program need whole numbers whose absolute values add up to at most 2^53 (F64.WholeSum), because they add in storage order; at the end of a program elems_nd_sum and elems_nd_mean (over some axes C82) hold for all numbers. count_nonzero assumes that no zero is stored, min and max F64.MinMaxOk, as in C95; sizes and the exclusion of CSC row scans as in C88. The dense program uses the kernels' own quotients (zero where the IEEE quotient is not finite, C94)."
  },
  {
   "property": "C97",
   "status": "proved",
   "theorems": [
    "Lacuna.py_tensordot_nd_any",
    "Lacuna.py_vecdot_nd_any",
    "Lacuna.prog_tensordot_nd_any",
    "Lacuna.prog_vecdot_nd_any",
    "Lacuna.prog_tensordot_nd_error",
    "Lacuna.prog_vecdot_nd_error",
    "Lacuna.prog_tensordot_nd_nan",
    "Lacuna.prog_vecdot_nd_nan",
    "Lacuna.elems_tensordot_nd",
    "Lacuna.elems_vecdot_nd"
   ],
   "note": "Nothing is assumed about the arithmetic in the first four theorems; the error bounds are for any arithmetic with a bounded rounding error (FpMul) in which numbers that compare equal to zero have the value zero. Binary64 as in C88, elements of programs as in C96. An infinite or NaN element of the dense array that meets nothing stored has no influence (0 * inf is NaN in NumPy); that is why the last clause asks for an element other than zero. Hypotheses on the dense operand and sizes as in C78; vecdot of a COOND with one axis raises (C78)."
  },
  {
   "property": "C98",
   "status": "proved",
   "theorems": [
    "Lacuna.whole_exact",
    "Lacuna.whole_toarray",
    "Lacuna.whole_entries",
    "Lacuna.whole_sum",
    "Lacuna.whole_nd_sum",
    "Lacuna.whole_prod",
    "Lacuna.whole_cumsum",
    "Lacuna.whole_linalg",
    "Lacuna.whole_tensordot_nd",
    "Lacuna.whole_vecdot_nd",
    "Lacuna.f64_elems"
   ],
   "note": "Binary64 as in C88. The exact elements are Prog.exactN and the conditions Prog.Whole (Spec/ExactNd); true division is not in these programs. Sums over axes inside programs: the cases reduceSum and reduceMean of f64_elems (Prog.elems and Prog.AsElems of Spec/F64Nd). Sizes as in C96 and C97."
  },
  {
   "property": "C99",
   "status": "proved",
   "theorems": [
    "Lacuna.elems_sum_axes",
    "Lacuna.elems_mean_axes",
    "Lacuna.elems_read",
    "Lacuna.whole_mean_axes",
    "Lacuna.whole_mean",
    "Lacuna.whole_nd_mean",
    "Lacuna.whole_diff"
   ],
   "note": "Binary64 as in C88, elements of programs as in C96 (Prog.elems, Prog.AsElems), exact elements as in C98. axisLine (Spec/F64Nd) lists the elements that are summed; F64.ReciprocalMean and F64.CorrectMean are in Spec/F64NdAxes, rnd64 is round-to-nearest-even (C92). At most 2^53 elements are averaged. Axis arguments that are rejected, and sizes, as in C79."
  }
 ]
}