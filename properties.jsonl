{"id": "C01", "title": "Checked CSR construction accepts exactly the well-formed matrices", "statement": "Building a CSR matrix with checking on succeeds if and only if the row pointer has nrows+1 entries, starts at 0, never decreases, ends at the number of stored entries, index and value arrays have equal length, and inside every row the column indices are strictly increasing and inside [0, ncols). On success the matrix holds the given arrays unchanged. It never panics, whatever the arrays contain.", "quantifier": "all nrows, ncols, all integer pointer and index arrays (any length, negative or huge entries), all value arrays", "why_tests_cant": "The set of malformed arrays is infinite; every kernel later uses unchecked indexing on the strength of this check, so a single accepted bad input is memory-unsafe.", "anchors": ["crates/lacuna-core/src/csr.rs: Csr::from_parts"]}
{"id": "C02", "title": "Checked CSC construction accepts exactly the well-formed matrices", "statement": "Same as C01 with rows and columns exchanged.", "quantifier": "all shapes and all arrays", "why_tests_cant": "Infinite input space; unchecked indexing downstream relies on it.", "anchors": ["crates/lacuna-core/src/csc.rs: Csc::from_parts"]}
{"id": "C03", "title": "Checked COO construction accepts exactly in-bounds triples", "statement": "Building a 2-D COO matrix with checking on succeeds iff the three arrays have equal length and every (row, col) lies inside the shape; duplicates are allowed.", "quantifier": "all shapes and arrays", "why_tests_cant": "Infinite input space.", "anchors": ["crates/lacuna-core/src/coo.rs: Coo::from_parts"]}
{"id": "C04", "title": "Checked N-D COO construction accepts exactly in-bounds coordinates", "statement": "Building an N-D COO array with checking on succeeds iff the shape is non-empty, the flat index array has nnz*ndim entries and every coordinate lies inside its dimension.", "quantifier": "all ranks, shapes and arrays", "why_tests_cant": "Unbounded rank and size.", "anchors": ["crates/lacuna-core/src/coo.rs: CooNd::from_parts"]}
{"id": "C05", "title": "Sparse addition equals dense addition", "statement": "For two well-formed matrices of equal shape, CSR (and CSC) addition yields a well-formed matrix whose value at every (i,j) is a(i,j)+b(i,j) and which stores no explicit zero.", "quantifier": "all shapes, all pairs of well-formed matrices, all value types with 0+x=x+0=x, all thread schedules", "why_tests_cant": "Depends on every interleaving of the two sorted rows and every schedule of the parallel fill.", "anchors": ["crates/lacuna-kernels/src/elementwise/add.rs: add_row_count, add_row_fill, add_csr, add_csc"]}
{"id": "C06", "title": "Sparse subtraction equals dense subtraction", "statement": "As C05 with a(i,j)-b(i,j); in particular A-A stores nothing.", "quantifier": "all shapes, all pairs of well-formed matrices, all schedules", "why_tests_cant": "as C05", "anchors": ["crates/lacuna-kernels/src/elementwise/subtract.rs: sub_row_count, sub_row_fill, sub_csr, sub_csc"]}
{"id": "C07", "title": "Hadamard product equals the dense element-wise product", "statement": "For two well-formed matrices of equal shape the element-wise product (CSR and CSC) is well-formed, has value a(i,j)*b(i,j) everywhere and stores no explicit zero.", "quantifier": "all shapes, all pairs of well-formed matrices, all schedules", "why_tests_cant": "as C05", "anchors": ["crates/lacuna-kernels/src/elementwise/multiply.rs: hadamard_row_count, hadamard_row_fill, hadamard_csr, hadamard_csc"]}
{"id": "C08", "title": "Counting pass and filling pass of every two-pass kernel agree", "statement": "For every two-pass element-wise kernel the number of slots reserved for a row by the counting pass equals the number of entries the filling pass writes into it, for every pair of rows, including unsorted rows, duplicate indices, NaN and infinities. Hence the unsynchronised raw-pointer fill never leaves its row segment, never overlaps another row and leaves no slot uninitialised.", "quantifier": "all index/value rows whatsoever, all seven binary kernels, all value semantics", "why_tests_cant": "A mismatch is a buffer overflow or stale slot that only shows on particular index/value coincidences; no sampling covers all rows.", "anchors": ["crates/lacuna-kernels/src/elementwise/add.rs", "crates/lacuna-kernels/src/elementwise/subtract.rs", "crates/lacuna-kernels/src/elementwise/multiply.rs", "crates/lacuna-kernels/src/elementwise/divide.rs", "crates/lacuna-kernels/src/elementwise/floor_divide.rs", "crates/lacuna-kernels/src/elementwise/remainder.rs", "crates/lacuna-kernels/src/elementwise/power.rs"]}
{"id": "C09", "title": "Parallel two-pass fill is schedule independent", "statement": "The output arrays of the two-pass kernels are the same for every order in which the worker threads perform their individual writes, and equal the concatenation of the per-row results.", "quantifier": "all interleavings of all element writes of all rows", "why_tests_cant": "Schedules cannot be enumerated by tests.", "anchors": ["crates/lacuna-kernels/src/elementwise/add.rs: add_csr", "crates/lacuna-kernels/src/utility/prune.rs: prune_eps"]}
{"id": "C10", "title": "Sparse division keeps exactly the finite nonzero quotients on the common pattern", "statement": "CSR/CSC division of well-formed equal-shape matrices stores at (i,j) the quotient a/b exactly when both operands store (i,j), b is nonzero and the quotient is finite and nonzero; result is well-formed. Over a field this is the dense quotient with x/0 = 0.", "quantifier": "all shapes and matrices", "why_tests_cant": "Infinite; depends on all merges and value classes.", "anchors": ["crates/lacuna-kernels/src/elementwise/divide.rs: div_csr, div_csc"]}
{"id": "C11", "title": "Floor-division and remainder are consistent", "statement": "CSR/CSC floor-division and remainder keep exactly the common-pattern entries with nonzero divisor and finite nonzero result; over an ordered field a = b*floor(a/b) + rem holds at each position with nonzero divisor stored on both sides, and for b>0 the remainder lies in [0,b).", "quantifier": "all shapes and matrices", "why_tests_cant": "Infinite; relation between two kernels.", "anchors": ["crates/lacuna-kernels/src/elementwise/floor_divide.rs", "crates/lacuna-kernels/src/elementwise/remainder.rs"]}
{"id": "C12", "title": "Power keeps exactly the finite nonzero powers on the common pattern", "statement": "Element-wise power stores at (i,j) the power of the two stored values exactly when both operands store (i,j) and the power is finite and nonzero.", "quantifier": "all shapes and matrices", "why_tests_cant": "Infinite.", "anchors": ["crates/lacuna-kernels/src/elementwise/power.rs"]}
{"id": "C13", "title": "Scalar multiplication scales every element", "statement": "Multiplying by a scalar in CSR, CSC, COO or N-D COO keeps the stored pattern and yields value alpha*a at every position, whichever of the alpha=0 / alpha=1 / SIMD paths is taken; duplicates in COO stay consistent.", "quantifier": "all matrices, all scalars", "why_tests_cant": "All lengths modulo the SIMD width and all special scalars.", "anchors": ["crates/lacuna-kernels/src/elementwise/multiply.rs: mul_scalar_csr, mul_scalar_csc, mul_scalar_coo, mul_scalar_coond"]}
{"id": "C14", "title": "abs and sign act element-wise", "statement": "abs/sign keep the pattern and, for matrices without duplicate coordinates, yield |a(i,j)| / sign(a(i,j)) everywhere. (For COO inputs with duplicate coordinates the code's answer differs from the dense one.)", "quantifier": "all matrices", "why_tests_cant": "All inputs incl. duplicates.", "anchors": ["crates/lacuna-kernels/src/elementwise/abs.rs", "crates/lacuna-kernels/src/elementwise/sign.rs"]}
{"id": "C15", "title": "Canonical results: equal dense content means identical stored arrays", "statement": "Two well-formed CSR matrices of equal shape without explicit zeros that agree at every (i,j) have identical indptr, indices and data. Hence A+B and B+A, (A+B)+C and A+(B+C), A*B and B*A are stored identically (exact arithmetic).", "quantifier": "all shapes and matrices", "why_tests_cant": "Infinite.", "anchors": ["crates/lacuna-core/src/csr.rs", "crates/lacuna-kernels/src/elementwise/add.rs"]}
{"id": "C16", "title": "prune keeps exactly the entries larger than eps", "statement": "prune(eps) with eps>=0 keeps, in order, exactly the stored entries with |v|>eps, keeps the shape, and preserves well-formedness; eps<0 returns an identical copy. Sequential and parallel paths agree; the SIMD count agrees with the copy loop.", "quantifier": "all matrices in CSR, CSC, COO, N-D COO; all eps", "why_tests_cant": "SIMD lanes/tails, thresholds, all inputs.", "anchors": ["crates/lacuna-kernels/src/utility/prune.rs"]}
{"id": "C17", "title": "eliminate_zeros removes only zeros", "statement": "eliminate_zeros leaves the dense content unchanged, leaves no stored zero and is idempotent. (With NaN values the CSR/CSC path drops NaN entries exactly when some stored zero exists - the code is inconsistent.)", "quantifier": "all matrices", "why_tests_cant": "Infinite; value-dependent fast path.", "anchors": ["crates/lacuna-kernels/src/utility/eliminate_zeros.rs", "crates/lacuna-kernels/src/utility/prune.rs: prune_eps"]}
{"id": "C18", "title": "The accumulating hash map refines a finite map", "statement": "After any sequence of insert_add calls (keys below the reserved key usize::MAX), listing the pairs yields each inserted key exactly once with the left-to-right sum of its inserted values; probing always terminates; growth preserves the content; drain_to adds each key's total to its slot.", "quantifier": "all operation sequences, all keys, all capacities, any hash function", "why_tests_cant": "Open addressing bugs depend on collision patterns and growth timing.", "anchors": ["crates/lacuna-kernels/src/utility/util.rs: UsizeF64Map"]}
{"id": "C19", "title": "N-D element-wise add/sub/mul agree with dense", "statement": "For N-D COO operands of equal shape (duplicates allowed, meaning their sum) add, subtract and multiply produce an array whose value at each index is the sum, difference, product; the result has in-bounds, strictly row-major-sorted unique coordinates and no explicit zeros.", "quantifier": "all ranks, shapes, duplicate patterns, hash layouts", "why_tests_cant": "Unbounded rank; hash order.", "anchors": ["crates/lacuna-kernels/src/elementwise/add.rs: add_coond", "crates/lacuna-kernels/src/elementwise/subtract.rs: sub_coond", "crates/lacuna-kernels/src/elementwise/multiply.rs: hadamard_coond"]}
{"id": "C20", "title": "Row-major linearisation is a bijection on in-bounds indices", "statement": "Linearising an in-bounds index with the row-major strides gives a number below the product of the shape, de-linearising returns the original index, and the order of linear numbers is the lexicographic order of indices.", "quantifier": "all shapes of any rank", "why_tests_cant": "Unbounded rank/size.", "anchors": ["crates/lacuna-kernels/src/elementwise/add.rs: add_coond", "crates/lacuna-kernels/src/elementwise/multiply.rs: build_strides", "crates/lacuna-kernels/src/manipulation/reshape.rs"]}
{"id": "C21", "title": "Broadcast multiply follows broadcasting semantics", "statement": "Broadcast multiplication of N-D COO arrays yields, at each output index, the product of the operands' values at the index with broadcast dimensions set to 0.", "quantifier": "all broadcastable shape pairs, all entries", "why_tests_cant": "Unbounded rank.", "anchors": ["crates/lacuna-kernels/src/elementwise/multiply.rs: hadamard_broadcast_coond"]}
{"id": "C22", "title": "reshape preserves row-major content", "statement": "Reshape to a shape with equal element count keeps every value at the same row-major position; reshaping back returns the original array.", "quantifier": "all shapes, all entries", "why_tests_cant": "Unbounded rank.", "anchors": ["crates/lacuna-kernels/src/manipulation/reshape.rs: reshape_coond"]}
{"id": "C23", "title": "permute_dims relabels axes exactly", "statement": "permute_dims moves the value at index x to the index whose d-th component is x[axes[d]], and permuting with the inverse permutation restores the array.", "quantifier": "all ranks, permutations and entries", "why_tests_cant": "Factorially many permutations.", "anchors": ["crates/lacuna-kernels/src/manipulation/permute_dims.rs: permute_axes_coond"]}
{"id": "C24", "title": "Axis reduction of N-D arrays sums exactly over the reduced axes", "statement": "reduce_sum over a set of axes yields at each remaining index the sum over all inputs whose remaining coordinates equal it; mean divides by the number of reduced cells.", "quantifier": "all ranks, axis sets, entries", "why_tests_cant": "Unbounded.", "anchors": ["crates/lacuna-kernels/src/statistical/sum.rs: reduce_sum_axes_coond", "crates/lacuna-kernels/src/statistical/mean.rs: reduce_mean_axes_coond"]}
{"id": "C25", "title": "COO to CSR sums duplicates and yields a well-formed matrix", "statement": "Conversion COO->CSR (and COO->CSC) of any in-bounds COO yields a well-formed matrix whose value at (i,j) is the sum of all triples at (i,j), for every order the unstable sort may leave equal keys in.", "quantifier": "all triples incl. duplicates, all tie orders", "why_tests_cant": "Tie orders and empty-row patterns.", "anchors": ["crates/lacuna-kernels/src/data_type_functions/astype.rs: coo_to_csr, coo_to_csc"]}
{"id": "C26", "title": "CSR/CSC to COO and back is the identity", "statement": "csr->coo lists exactly the stored entries; csr->coo->csr returns the identical matrix for well-formed input; same for csc.", "quantifier": "all well-formed matrices", "why_tests_cant": "Infinite.", "anchors": ["crates/lacuna-kernels/src/data_type_functions/astype.rs: csr_to_coo, csc_to_coo, coo_to_csr"]}
{"id": "C27", "title": "CSR<->CSC conversion preserves the matrix for every schedule", "statement": "csr_to_csc and csc_to_csr yield, for every interleaving of the parallel atomic slot claims, a matrix of the same shape with the same value at every (i,j) and with every output slot written exactly once; all well-formedness conditions except sortedness inside a line hold, and all sorted outcomes coincide. Sortedness itself fails: there are a well-formed matrix and an interleaving whose result is unsorted, and multiplying that result with its sorted form silently drops an entry.", "quantifier": "all matrices, all interleavings of atomic operations", "why_tests_cant": "Needs all schedules; passes under sequential execution.", "anchors": ["crates/lacuna-kernels/src/data_type_functions/astype.rs: csr_to_csc, csc_to_csr"]}
{"id": "C28", "title": "Transpose is correct, well-formed and schedule independent", "statement": "Transpose of a well-formed CSR/CSC matrix is the well-formed matrix with value a(j,i) at (i,j), identical for both internal strategies, any number of tiles/threads and every interleaving of atomic slot claims; transposing twice returns the identical matrix.", "quantifier": "all matrices, tile counts, schedules", "why_tests_cant": "Schedules, thread counts, memory-size thresholds.", "anchors": ["crates/lacuna-kernels/src/linalg/matrix_transpose.rs: transpose_csr, transpose_csc, transpose_coo"]}
{"id": "C29", "title": "N-D to matrix unfolding places every entry correctly", "statement": "Unfolding an N-D COO array by a set of row axes gives a matrix whose value at (r,c) is the sum of entries whose row-axis coordinates linearise to r and remaining coordinates to c.", "quantifier": "all ranks, axis lists, entries", "why_tests_cant": "Unbounded rank.", "anchors": ["crates/lacuna-kernels/src/data_type_functions/astype.rs: coond_axes_to_coo, coond_axes_to_csr, coond_mode_to_csr"]}
{"id": "C30", "title": "CSR matrix-vector product is exact, schedule-independent and covers every row", "statement": "y = A x gives for each row the left-to-right fused accumulation over the stored entries from 0, for every unrolling phase and every partition of rows into work ranges; every row is written exactly once or is empty and 0. Over a commutative ring it equals sum_j a(i,j) x(j).", "quantifier": "all matrices, vectors, range targets", "why_tests_cant": "Row-length residues, range boundaries, empty rows.", "anchors": ["crates/lacuna-kernels/src/linalg/matmul.rs: spmv_csr, spmv_row"]}
{"id": "C31", "title": "CSC/COO/N-D matrix-vector products agree with CSR", "statement": "The CSC, COO and N-D COO matrix-vector kernels give sum_j a(i,j) x(j) for every thread-local accumulation strategy, every assignment of work to threads and every merge order (exact arithmetic).", "quantifier": "all matrices, vectors, schedules, strategies", "why_tests_cant": "Schedules; size thresholds.", "anchors": ["crates/lacuna-kernels/src/linalg/matmul.rs: spmv_csc, spmv_coo, spmv_coond"]}
{"id": "C32", "title": "Matrix-matrix products agree across formats", "statement": "CSR, CSC, COO and N-D COO times dense row-major matrix give sum_j a(i,j) B(j,c); the auto-dispatch equals the general kernel.", "quantifier": "all matrices, all k, schedules", "why_tests_cant": "Unroll residues of k, schedules.", "anchors": ["crates/lacuna-kernels/src/linalg/matmul.rs: spmm_csr, spmm_csc, spmm_coo, spmm_coond, spmm_auto_csr"]}
{"id": "C33", "title": "tensordot and vecdot contract exactly the requested axis", "statement": "tensordot and vecdot kernels give the sum over the contracted axis of products.", "quantifier": "all shapes, schedules", "why_tests_cant": "Unbounded.", "anchors": ["crates/lacuna-kernels/src/linalg/tensordot.rs", "crates/lacuna-kernels/src/linalg/vecdot.rs"]}
{"id": "C34", "title": "sum equals the sum of all elements for any chunking and reduction tree", "statement": "sum over CSR/CSC/COO/N-D equals the sum of all matrix elements for any SIMD lane split, chunk size and order in which chunk results are combined (exact arithmetic).", "quantifier": "all arrays, chunkings, reduction trees", "why_tests_cant": "Schedules.", "anchors": ["crates/lacuna-kernels/src/statistical/sum.rs: sum_csr, sum_csc, sum_coo, sum_coond"]}
{"id": "C35", "title": "Row and column sums are exact in every strategy and format", "statement": "Row sums and column sums in CSR, CSC and COO equal the dense row/column sums for each of the dense, hashed and striped accumulation strategies, each assignment of work to threads and each merge order; every worker range partition covers each row once.", "quantifier": "all matrices, strategies, schedules", "why_tests_cant": "Thresholds and schedules.", "anchors": ["crates/lacuna-kernels/src/statistical/sum.rs: row_sums_f64, col_sums_f64, row_sums_csc_f64, col_sums_csc_f64, row_sums_coo_f64, col_sums_coo_f64"]}
{"id": "C36", "title": "Minimum and maximum account for implicit zeros", "statement": "min/max (global, per row, per column) of a well-formed CSR/CSC matrix with at least one row and column equals the minimum/maximum over all cells including implicit zeros. (COO with duplicate coordinates violates this.)", "quantifier": "all matrices over a linear order, all chunkings", "why_tests_cant": "Fill-count corner cases.", "anchors": ["crates/lacuna-kernels/src/statistical/minmax.rs"]}
{"id": "C37", "title": "Products account for implicit zeros", "statement": "prod (global, per row, per column) of a well-formed matrix equals the product over all cells.", "quantifier": "all matrices", "why_tests_cant": "Fill-count corner cases.", "anchors": ["crates/lacuna-kernels/src/statistical/prod.rs"]}
{"id": "C38", "title": "Variance matches its definition over all cells", "statement": "var over all cells, rows or columns of a well-formed matrix equals (sum of squared deviations)/(n-correction) including implicit zeros (exact arithmetic), is never negative, and is 0 when n-correction<=0.", "quantifier": "all matrices, corrections", "why_tests_cant": "Unbounded; implicit zeros.", "anchors": ["crates/lacuna-kernels/src/statistical/varstd.rs"]}
{"id": "C39", "title": "all/any equal the dense truth values", "statement": "all/any (global, per row, per column) equal the conjunction/disjunction over all cells of (value != 0) for well-formed matrices. (N-D COO duplicates violate it.)", "quantifier": "all matrices", "why_tests_cant": "Fill-count corner cases.", "anchors": ["crates/lacuna-kernels/src/statistical/logic.rs"]}
{"id": "C40", "title": "cumsum and cumprod give dense prefix sums/products", "statement": "cumulative sum/product along either axis of a well-formed CSR equals the dense prefix sum/product at each cell. For CSC the code converts through an unsorted intermediate, so under some schedules the result is wrong.", "quantifier": "all matrices, schedules", "why_tests_cant": "Schedules, gap patterns.", "anchors": ["crates/lacuna-kernels/src/statistical/cumulative.rs", "crates/lacuna-py/src/array_api/reduce.rs"]}
{"id": "C41", "title": "n-th differences are the dense n-th differences", "statement": "diff of order n along an axis of a well-formed CSR has ncols-n (or nrows-n) along that axis and equals the n-fold dense forward difference.", "quantifier": "all matrices, orders n", "why_tests_cant": "Unbounded n.", "anchors": ["crates/lacuna-kernels/src/manipulation/diff.rs"]}
{"id": "C42", "title": "Creation routines build the intended matrices", "statement": "zeros, eye(n,m,k) and diag yield well-formed matrices with the documented content.", "quantifier": "all sizes and offsets", "why_tests_cant": "Unbounded offsets incl. extreme.", "anchors": ["crates/lacuna-py/src/array_api/creation.rs"]}
{"id": "C43", "title": "Element and slice access on CSR returns the dense value", "statement": "a[i,j], a[i,:], a[:,j], toarray on a well-formed CSR return the dense values for in-range (and negative) indices and raise otherwise. (Negative/oob row/column slices are wrong in the code.) Subscripts, slices and assignments through index arrays are NumPy's as documented, for all integers.", "quantifier": "all matrices, all integer indices", "why_tests_cant": "All indices.", "anchors": ["python/lacuna/sparse/csr.py: CSR.__getitem__, CSR.toarray"]}
{"id": "C44", "title": "Batched dense @ sparse matmul reshaping is correct", "statement": "matmul of a 2-D sparse matrix with a batched dense array of shape (...,K,N) through one 2-D product followed by reshape/transposes returns out[b,m,n] = sum_k x[m,k] y[b,k,n].", "quantifier": "all batch shapes", "why_tests_cant": "Unbounded rank.", "anchors": ["python/lacuna/array_api/linalg/__init__.py: matmul"]}
{"id": "C45", "title": "Work partition into ranges is exact", "statement": "The row-range splitter used by parallel kernels yields contiguous, disjoint, increasing ranges; every row outside them is empty; each range but the last carries at least the target number of entries.", "quantifier": "all pointer arrays, all targets", "why_tests_cant": "Boundary conditions at empty rows.", "anchors": ["crates/lacuna-kernels/src/linalg/matmul.rs: spmv_csr", "crates/lacuna-kernels/src/statistical/sum.rs: row_sums_f64"]}
{"id": "C46", "title": "Transposition commutes with the algebra", "statement": "transpose(A+B)=transpose(A)+transpose(B), (A*B)^T=A^T*B^T stored identically; column reductions computed through the transpose equal those of the dense matrix.", "quantifier": "all matrices", "why_tests_cant": "Relational property across kernels.", "anchors": ["crates/lacuna-kernels/src/linalg/matrix_transpose.rs", "crates/lacuna-kernels/src/elementwise/add.rs", "crates/lacuna-kernels/src/statistical/minmax.rs"]}
{"id": "C47", "title": "Floor division, remainder and power by a scalar", "statement": "Floor division, remainder and power by a scalar keep the stored pattern and apply the operation to each stored value; for a nonzero scalar floor division and remainder equal the dense ones at every cell and satisfy a = s*(a//s) + a%s; power equals the dense power whenever 0**s = 0. (For s = 0 the dense power of an implicit zero is 1 but the code leaves 0.)", "quantifier": "all matrices, all scalars", "why_tests_cant": "Implicit zeros are invisible to stored-value tests.", "anchors": ["crates/lacuna-kernels/src/elementwise/floor_divide.rs: floordiv_scalar_f64", "crates/lacuna-kernels/src/elementwise/remainder.rs: rem_scalar_f64", "crates/lacuna-kernels/src/elementwise/power.rs: pow_scalar_f64"]}
{"id": "C48", "title": "The global mean of an N-D array is the mean over all cells", "statement": "mean_coond of a well-formed N-D COO array (repeated coordinates allowed) is the sum of all cells divided by the number of cells, and 0 if there are no cells.", "quantifier": "all arrays, all reduction trees", "why_tests_cant": "Implicit zeros count in the denominator; schedules are unbounded.", "anchors": ["crates/lacuna-kernels/src/statistical/mean.rs: mean_coond_f64"]}
{"id": "C49", "title": "Comparisons of sparse arrays compare the dense values", "statement": "equal, not_equal, less, less_equal, greater, greater_equal of two sparse arrays of the same shape return the boolean array whose cell is the comparison of the two values there; for COO and N-D COO duplicates are summed first. toarray of CSC and COO is the dense matrix.", "quantifier": "all well-formed arrays of the same shape, every comparison function on values", "why_tests_cant": "Unbounded arrays; implicit zeros take part in the comparison.", "anchors": ["python/lacuna/array_api/_dispatch/elementwise.py: equal, not_equal, less, less_equal, greater, greater_equal", "python/lacuna/sparse/csc.py: CSC.toarray", "python/lacuna/sparse/coo.py: COO.toarray"]}
{"id": "C50", "title": "Axis arguments are normalised to the set of axes they denote", "statement": "_normalize_axes_2d and _normalize_axes_nd map None to None and every list of axes within [-ndim, ndim) to the strictly increasing tuple of the axes it denotes (negative ones counted from the end, repetitions once); any other axis raises ValueError.", "quantifier": "all integer lists, all ranks", "why_tests_cant": "Unbounded lists with repetitions and mixed signs.", "anchors": ["python/lacuna/array_api/_dispatch/reductions.py: _normalize_axes_2d, _normalize_axes_nd", "python/lacuna/array_api/_dispatch/searching.py: _normalize_axes_2d"]}
{"id": "C51", "title": "2-D reductions of the Python layer reduce the right axes", "statement": "sum, prod, var, std, min, max, all, any of a CSR, CSC or COO matrix return, for every valid axis argument and both values of keepdims, the array whose shape is the array-API reduced shape and whose cell y reduces exactly the dense elements that contribute to y; axis=() raises NotImplementedError and an invalid axis ValueError.", "quantifier": "all well-formed matrices, all axis arguments, every schedule of the kernels", "why_tests_cant": "Row and column are easily swapped, square inputs hide it; schedules are unbounded.", "anchors": ["python/lacuna/array_api/_dispatch/reductions.py: sum, prod, var, std, min, max, all, any"]}
{"id": "C52", "title": "2-D means of the Python layer divide by the number of reduced elements", "statement": "mean of a CSR, CSC or COO matrix with at least one element is, for every valid axis argument and both values of keepdims, the mean of the dense elements that contribute to each cell. (With no elements mean(x) raises ZeroDivisionError.)", "quantifier": "all well-formed matrices, all axis arguments, every schedule", "why_tests_cant": "Unbounded sizes; the wrong extent cancels on square inputs.", "anchors": ["python/lacuna/array_api/_dispatch/reductions.py: mean"]}
{"id": "C53", "title": "count_nonzero counts the nonzero elements", "statement": "count_nonzero of a CSR, CSC or COO matrix without explicit zeros (and without repeated coordinates) counts, for every valid axis argument and both values of keepdims, the nonzero dense elements that contribute to each cell. (With an explicit zero, or cancelling duplicates, the count is too large.)", "quantifier": "all matrices, all axis arguments", "why_tests_cant": "Explicit zeros and duplicates are invisible to tests on canonical inputs.", "anchors": ["python/lacuna/array_api/_dispatch/searching.py: count_nonzero"]}
{"id": "C54", "title": "N-D sum and mean of the Python layer, with and without keepdims", "statement": "sum and mean of a well-formed N-D COO array over any existing axes that leave at least one axis return a well-formed N-D array of the array-API reduced shape (with extent 1 on the reduced axes if keepdims) whose cell y is the sum/mean of exactly the elements that contribute to y; axis=None gives the total. (Listing all axes panics in the kernel.)", "quantifier": "all ranks, shapes and arrays, all axis arguments", "why_tests_cant": "Unbounded rank; scatter of coordinates into the kept axes.", "anchors": ["python/lacuna/array_api/_dispatch/reductions.py: sum, mean, _coond_with_keepdims"]}
{"id": "C55", "title": "The unsafe element-wise kernels stay inside their buffers", "statement": "For CSR/CSC operands whose pointers are non-negative, non-decreasing and within both arrays (stored indices arbitrary), add, subtract, multiply, divide, floor_divide, remainder and power at pointer level - raw reads and writes, as-casts, debug and release builds, parallel fill - have exactly one outcome over all schedules: a panic if the shapes differ, otherwise the matrix computed by the list-level kernel. In particular no access outside an allocation, no data race, no debug assertion failure and termination. (With check=False a matrix is constructible on which the kernel reads out of bounds.)", "quantifier": "all operands satisfying the pointer condition, all schedules, both builds", "why_tests_cant": "A safety statement about every memory access of an unbounded execution; a missed bound is silent in tests.", "anchors": ["crates/lacuna-kernels/src/elementwise/add.rs: add_row_count, add_row_fill, add_csr_f64_i64, add_csc_f64_i64", "crates/lacuna-kernels/src/elementwise/subtract.rs: sub_row_count, sub_row_fill", "crates/lacuna-kernels/src/elementwise/multiply.rs: hadamard_row_count, hadamard_row_fill", "crates/lacuna-kernels/src/elementwise/divide.rs: div_row_count, div_row_fill", "crates/lacuna-kernels/src/elementwise/floor_divide.rs", "crates/lacuna-kernels/src/elementwise/remainder.rs", "crates/lacuna-kernels/src/elementwise/power.rs"]}
{"id": "C56", "title": "The unrolled dot-product kernels stay inside their buffers", "statement": "For a matrix whose pointers are in order and within both arrays and whose indices inside the rows are within the vector, spmv (CSR) and vecdot (CSC) at pointer level - 16/8/4/1-way unrolled get_unchecked and raw-pointer loops, bit-mask limits, parallel row ranges with raw stores, debug and release builds - have exactly one outcome over all schedules: a panic if the vector has the wrong length, otherwise the fused multiply-add of every row in stored order. So no out-of-bounds access, no race, no skipped or repeated entry, termination. (With check=False a matrix is constructible on which spmv reads outside x, in both builds.)", "quantifier": "all matrices, all vectors, all schedules, both builds", "why_tests_cant": "Memory safety of every access for every row length modulo 16; a read past the end is silent in tests.", "anchors": ["crates/lacuna-kernels/src/linalg/matmul.rs: spmv_row_f64_i64, spmv_f64_i64", "crates/lacuna-kernels/src/linalg/vecdot.rs: vecdot_csc_dense_axis0_f64_i64"]}
{"id": "C57", "title": "The SIMD slice loops stay inside the slice for every input", "statement": "The unaligned 4-lane loops with scalar tail (global sum, product, min/max, sum with sum of squares, abs, multiplication by a scalar, the prune counter) at pointer level never read or write outside the slice, whatever its length, terminate, and compute exactly the list-level function; row_sums (CSR, raw parallel stores over work ranges) and col_sums_csc have exactly the list-level outcome when the pointers are in order, and for arbitrary, even corrupt, pointer arrays return or panic but never have undefined behaviour or a race.", "quantifier": "all slices, all matrices (also invalid ones), all schedules, both builds", "why_tests_cant": "Out-of-bounds SIMD reads by a wrong mask or tail are silent in tests; the corrupt-input statement quantifies over all malformed arrays.", "anchors": ["crates/lacuna-kernels/src/statistical/sum.rs: sum_f64, row_sums_f64, col_sums_csc_f64", "crates/lacuna-kernels/src/statistical/prod.rs: chunk_prod", "crates/lacuna-kernels/src/statistical/minmax.rs: chunk_min, chunk_max", "crates/lacuna-kernels/src/statistical/varstd.rs: chunk_sum_sum2", "crates/lacuna-kernels/src/elementwise/abs.rs", "crates/lacuna-kernels/src/elementwise/multiply.rs: mul_scalar_*", "crates/lacuna-kernels/src/utility/prune.rs: count_significant"]}
{"id": "C58", "title": "Validation at construction keeps Python programs inside their buffers", "statement": "For every expression built from CSR constructor calls (default check=True, arbitrary arguments), +, -, multiply, divide, floor_divide, remainder, power, scalar * and abs, evaluation at pointer level has exactly one outcome over all schedules and both builds: the exception or the well-formed matrix prescribed by the list-level kernels; so never undefined behaviour or a hang, and @ with a vector of any length is safe on the result. For CSC the same holds if the constructor arguments are valid, or for arbitrary arguments if only +, -, multiply and scalar * occur. (CSC swallows the validation error: divide, floor_divide, remainder and power of two CSC objects built with check=True can read out of bounds, and abs turns an invalid object into one every operator accepts.)", "quantifier": "all expressions of any size, all constructor arguments, all schedules, both builds", "why_tests_cant": "Safety of unbounded programs on arbitrary (also malformed) arrays; the hole is in an exception path tests do not take.", "anchors": ["python/lacuna/sparse/csr.py: CSR.__init__, __add__, __sub__, multiply, divide, floor_divide, remainder, power, __mul__, __abs__, __matmul__", "python/lacuna/sparse/csc.py: CSC.__init__, divide, floor_divide, remainder, power, __abs__, __add__, __sub__, multiply, __mul__", "crates/lacuna-py/src/types/csr.rs: Csr64::new", "crates/lacuna-py/src/types/csc.rs: Csc64::new"]}
{"id": "C59", "title": "The atomic format conversions stay inside their buffers under every interleaving", "statement": "For every CSR/CSC matrix with the documented invariants except that lines may be unsorted and repeat indices, csr_to_csc and csc_to_csr at pointer level - checked counting pass with in-place prefix sums, tasks that claim positions by fetch_add on shared counters in any small-step interleaving, raw stores - never leave a buffer, never race, never fail a debug assertion, and have exactly the results of the list-level model (each of which has the same shape, entries and elements); if the pointer array cannot be allocated the only outcome is a panic. csr_to_coo and csc_to_coo have exactly the list-level results whenever the pointers are in order and within the arrays, whatever the indices. (With check=False, decreasing pointers make both conversions write behind the end, and csr_to_coo writes out of bounds for a row that starts behind the end, where csc_to_coo panics.)", "quantifier": "all matrices, all interleavings of all single claims and stores, both builds", "why_tests_cant": "Atomic interleavings cannot be enumerated by tests; a slot claimed twice or behind the end is silent.", "anchors": ["crates/lacuna-kernels/src/data_type_functions/astype.rs: csr_to_csc_f64_i64, csc_to_csr_f64_i64, csr_to_coo_f64_i64, csc_to_coo_f64_i64"]}
{"id": "C60", "title": "Both transposition strategies stay inside their buffers under every schedule", "statement": "For every CSR/CSC matrix with the documented invariants except that lines may be unsorted and repeat indices, transposition at pointer level - strategy A: per-tile histograms through raw pointers, 4-way unrolled get_unchecked loops, offset tables, raw parallel fill; strategy B: fetch_add position claims in any small-step interleaving, then the parallel copy-sort-write-back of every line - never leaves a buffer, never races, never fails a debug assertion, terminates, and has exactly the results of the list-level model, for every number of threads; without repeated indices every run returns the well-formed transpose. If the pointer array cannot be allocated the only outcome is a panic. (For arrays accepted with check=False that store an index outside the matrix every run of strategy A is undefined behaviour, also in debug builds, while strategy B panics.)", "quantifier": "all matrices, all thread counts below 2^62, all interleavings, both builds", "why_tests_cant": "Strategies are chosen by size and thread count; races and out-of-bounds writes are silent in tests.", "anchors": ["crates/lacuna-kernels/src/linalg/matrix_transpose.rs: transpose_f64_i64, transpose_csc_f64_i64"]}
{"id": "C61", "title": "Pruning stays inside its buffers, also for arbitrary pointer values", "statement": "For every CSR/CSC matrix with one pointer per line plus one and valid pointers (whatever the indices), prune_eps / prune_eps_csc at pointer level - early return, sequential path with checked accesses, parallel path with the unrolled counting loop and raw reads and writes - never leaves a buffer, never races, never fails a debug assertion, terminates and returns exactly the list-level result; on well-formed matrices that is the matrix of the entries with |value| > eps. For arbitrary pointer values (negative, decreasing, too large) and at most one pointer per line plus one, with an index for every value, the only outcomes are a panic or a returned matrix; if the number of pointers is right a returned matrix is the list-level result and the pointers were valid. (With surplus pointers accepted by check=False the sequential path panics, while the parallel path - 16384 entries or more - is undefined behaviour, and so it is for a kept value without an index.)", "quantifier": "all matrices, all thresholds, all schedules, both builds", "why_tests_cant": "The parallel path needs 16384 stored values and malformed arrays; out-of-bounds accesses are silent in tests.", "anchors": ["crates/lacuna-kernels/src/utility/prune.rs: prune_eps, prune_eps_csc, count_significant, copy_significant_entries"]}
{"id": "C62", "title": "N-D reshape and unfolding stay inside their buffers for arbitrary index values", "statement": "reshape_coond and the mode/axes unfolding at pointer level (get_unchecked index reads, raw parallel stores, sequential branch below the threshold) never have undefined behaviour or a race on an array with as many indices as entries times rank, whatever the index values: in a release build the one outcome is the list-level result or a panic; on a well-formed array the call returns in both builds and every cell is found at its new position. Called from Python with arbitrary shape, index, value and axis arrays, with and without check, unfolding raises, panics or returns the list-level result; reshape does too unless the number of entries times the new rank exceeds usize, in which case a debug build panics and a release build writes outside a too small buffer in every run.", "quantifier": "all arrays (also with invalid indices), all new shapes / axis lists, all schedules, both builds", "why_tests_cant": "Safety on all malformed arrays and all schedules; the wrapped size needs 2^64 index slots, out of reach of any test.", "anchors": ["crates/lacuna-kernels/src/manipulation/reshape.rs: reshape_coond_f64_i64", "crates/lacuna-kernels/src/data_type_functions/astype.rs: coond_axes_to_coo_f64_i64", "crates/lacuna-core/src/coo.rs: CooNd::from_parts", "crates/lacuna-py/src/array_api/manipulation.rs: coond_reshape_from_parts", "crates/lacuna-py/src/array_api/utility.rs: coond_axes_to_csr_from_parts, coond_axes_to_csc_from_parts"]}
{"id": "C63", "title": "Cumulative sums and products stay inside their buffers when the dense result fits into memory", "statement": "The row- and column-wise cumulative sum/product kernels at pointer level (unchecked reads of indices and values, unchecked stores into the chunk of a row, raw-pointer transposition and unchecked dense transposition for axis 0) on a matrix with valid pointers and columns in range (axis 1: unsorted and repeated allowed) whose dense result is at most isize::MAX bytes never have undefined behaviour, never panic, terminate and return exactly the list-level result, which on well-formed matrices is the prefix sums/products. A larger result that fits into usize panics; beyond usize a debug build panics, but in a release build the size wraps and every run on a valid matrix whose first row is stored around the wrapped size writes behind its buffer.", "quantifier": "all matrices, all schedules, both builds", "why_tests_cant": "The wrapped size needs a matrix with more than 2^64 cells (a valid CSR of 5 rows does); out-of-bounds stores are silent.", "anchors": ["crates/lacuna-kernels/src/statistical/cumulative.rs: csr_cumsum_dense_axis1_f64, csr_cumprod_dense_axis1_f64, csr_cumsum_dense_axis0_f64, csr_cumprod_dense_axis0_f64, transpose_dense_row_major"]}
{"id": "C64", "title": "Difference kernels stay inside their buffers", "statement": "The n-th forward difference kernels at pointer level (unchecked reads of indices and values, counting pass, prefix sum, raw parallel stores; axis 0 through two transpositions, CSC through two conversions) never have undefined behaviour on any CSR matrix with valid pointers, whatever the column indices and whatever the sort returns: along the rows every run panics or returns the list-level result (release builds: if the number of result entries fits into i64). With columns in range (unsorted and repeated allowed) and sizes within memory every run returns exactly the list-level result, no race, no panic; on well-formed matrices of both layouts and for both axes that is the n-th difference. A non-empty row starting at or behind the end of the index array is read outside it in both builds.", "quantifier": "all matrices with valid pointers, all orders n, all schedules, both builds", "why_tests_cant": "Counting and filling passes recompute the rows independently; a disagreement would be an out-of-bounds store, invisible to result comparisons.", "anchors": ["crates/lacuna-kernels/src/manipulation/diff.rs: diff_csr_axis1_f64_i64, diff_csr_axis0_f64_i64, diff_csc_axis1_f64_i64, diff_csc_axis0_f64_i64, diff_row_pairs, combine_sorted_pairs"]}
{"id": "C65", "title": "Thread-local accumulation stays inside its buffers, except for the hash map on invalid indices", "statement": "The kernels that scatter into per-thread accumulators (column sums of CSR and COO, row sums of CSC and COO, CSC and COO matrix-vector product, vecdot of CSR and COO) at pointer level, with their dense, touched, striped and hash-map accumulators, unrolled merges and raw striped stores: on every valid matrix (unsorted and repeated allowed), for every strategy, schedule and grouping of the work, no undefined behaviour, no panic, and every run returns a result of the list-level kernel, hence the sums / products of the matrix. On arbitrary arrays the dense and striped accumulators never leave their buffers; the hash map never leaves its own table but drains unchecked: with valid pointers and one stored index at or past the output length, every run of the hash strategy writes outside the output in both builds.", "quantifier": "all matrices and arrays, all schedules, both builds", "why_tests_cant": "An out-of-bounds write of drain_to is silent; which accumulator is used depends on sizes and thread count.", "anchors": ["crates/lacuna-kernels/src/statistical/sum.rs: col_sums_f64, row_sums_csc_f64, row_sums_coo_f64, col_sums_coo_f64", "crates/lacuna-kernels/src/linalg/matmul.rs: spmv_csc_f64_i64, spmv_coo_f64_i64", "crates/lacuna-kernels/src/linalg/vecdot.rs: vecdot_csr_dense_axis0_f64_i64, vecdot_coo_dense_axis0_f64_i64", "crates/lacuna-kernels/src/utility/util.rs: UsizeF64Map (insert_add, grow, drain_to)"]}
{"id": "C66", "title": "Sparse times dense matrix products stay inside their buffers; invalid indices and wrapped result sizes do not", "statement": "spmm of CSR, CSC, COO and the automatic choice at pointer level (column tiles, four-lane loads and stores, raw writes of parallel tiles into one shared output): for every valid matrix (unsorted and repeated allowed), every dense operand of the right size and both builds there is no undefined behaviour, no data race and no panic, and every run returns the matrix product; a dense operand of the wrong size panics before any access. For arbitrary pointers and array lengths no access leaves a buffer as long as the stored indices are in range and the two size products do not wrap. Otherwise the claim fails: a stored column past ncols makes the CSR kernel read b outside, a stored row past nrows makes the CSC and COO kernels write the output outside, and for a valid CSC or COO matrix whose nrows*k exceeds 2^64 the release build allocates a short output and writes outside it (the debug build panics).", "quantifier": "all matrices, operands, widths and schedules, both builds", "why_tests_cant": "The wrapped size needs 2^64 cells but only one stored entry and a 128 MB operand; out-of-bounds raw accesses are silent.", "anchors": ["crates/lacuna-kernels/src/linalg/matmul.rs: spmm_f64_i64, spmm_csc_f64_i64, spmm_coo_f64_i64, spmm_auto_f64_i64", "crates/lacuna-py/src/types/csc.rs", "crates/lacuna-py/src/types/coo.rs"]}
{"id": "C67", "title": "N-D kernels accumulating in a hash map never leave their buffers", "statement": "add, sub, hadamard, reduce_sum_axes and spmv of N-D COO arrays at pointer level (the hash table with its unchecked slots, checked linearisation, de-linearisation by division): for any arrays whatsoever, any axes, any vector and either build there is no undefined behaviour. On valid arrays whose remaining shape has fewer than 2^64 cells every one of them terminates without panic in both builds and returns the sum, difference, product, axis sum or contraction. An array of exactly 2^64 cells with an entry in the last one uses the reserved key: the debug build panics, the release build loses the entry.", "quantifier": "all arrays, axes and vectors, both builds", "why_tests_cant": "Absence of undefined behaviour on all malformed arrays; the reserved key needs a shape of 2^64 cells.", "anchors": ["crates/lacuna-kernels/src/elementwise/add.rs: add_coond_f64_i64", "crates/lacuna-kernels/src/elementwise/subtract.rs: sub_coond_f64_i64", "crates/lacuna-kernels/src/elementwise/multiply.rs: hadamard_coond_f64_i64", "crates/lacuna-kernels/src/statistical/sum.rs: reduce_sum_axes_coond_f64_i64", "crates/lacuna-kernels/src/linalg/matmul.rs: spmv_coond_f64_i64", "crates/lacuna-kernels/src/utility/util.rs: UsizeF64Map (with_capacity, insert_add, grow, pairs)"]}
{"id": "C68", "title": "N-D sparse times dense products read only their operand; stray coordinates and wrapped lengths do not", "statement": "spmm of an N-D COO array along any axis, and tensordot on top of it, at pointer level (five raw reads of the dense factor, unrolled by four): for any arrays, either build, no undefined behaviour if the stored coordinates along the contracted axis are in range and the length product does not wrap; tensordot checks the product, so from Python with check=True it never has undefined behaviour whatever the arguments. On valid operands both return without panic the contraction. A wrong axis or length panics before any access. A first entry with a coordinate at or past the extent reads outside the factor in both builds; for a valid array of extent 2^40 and 2^24 columns an empty factor passes the wrapped length check of spmm and is read in release builds.", "quantifier": "all arrays, axes, dense factors and widths, both builds", "why_tests_cant": "Out-of-bounds reads are silent; the wrapped length needs extents beyond any test.", "anchors": ["crates/lacuna-kernels/src/linalg/matmul.rs: spmm_coond_f64_i64", "crates/lacuna-kernels/src/linalg/tensordot.rs: tensordot_coond_dense_axis_f64_i64", "crates/lacuna-py/src/array_api/linalg.rs: coond_tensordot_dense_axis_from_parts", "crates/lacuna-core/src/coo.rs: CooNd::from_parts"]}
{"id": "C69", "title": "Broadcasting product of N-D arrays is free of undefined behaviour unless a buffer size wraps", "statement": "For arbitrary arrays (indices in range or not, of the right length or not), every schedule, every hash order and every unstable sort, the broadcasting product of two N-D COO arrays never reads or writes outside its buffers, provided the numbers of stored entries times the common number of axes fit in usize (in a debug build without this proviso, also when called from Python with or without check). On valid arrays whose shapes broadcast every run returns the same array: sorted, valid, of the broadcast shape, each cell the product of the two cells it is broadcast from; shapes that do not broadcast panic before any allocation. The proviso is needed: entries times axes are multiplied unchecked, and for valid arguments accepted with check=True whose product exceeds usize every run of a release build writes outside the buffer.", "quantifier": "all arrays, shapes, thread counts, schedules, hash orders, correct unstable sorts, with and without debug assertions", "why_tests_cant": "The kernel fills buffers through a raw pointer shared between threads and reads them with get_unchecked.", "anchors": ["crates/lacuna-kernels/src/elementwise/multiply.rs:100-308", "crates/lacuna-py/src/array_api/elementwise.rs:1482-1543"]}
{"id": "C70", "title": "Sums in binary64: error bound for every execution", "statement": "In floating-point arithmetic (no associativity) the total sum and the row and column sums of CSR, CSC and COO matrices add exactly the stored values of the row or column, each once, in some order and bracketing, whatever the strategy, number of threads, division of the work and order of merging, and never panic on valid matrices. Hence, for any arithmetic with unit roundoff eps, if the n values are finite and the sum of absolute values times (1+eps)^n does not overflow, the result is finite and at most ((1+eps)^(n-1)-1) times the sum of absolute values away from the exact sum. IEEE binary64 (round to nearest even, gradual underflow, overflow) is such an arithmetic. Integer multiples of one power of two with absolute sum below 2^53 units are summed exactly and reproducibly; in general the sum is not reproducible: the same array of 12288 numbers has two runs with different results.", "quantifier": "all arrays and matrices, all thread counts, strategies, divisions and merge orders, all finite binary64 values", "why_tests_cant": "The exact-arithmetic theorems say nothing about the actual f64 results; a term dropped or added twice under one strategy would hide in the rounding noise.", "anchors": ["crates/lacuna-kernels/src/statistical/sum.rs: sum_f64", "crates/lacuna-kernels/src/statistical/sum.rs: row_sums_f64", "crates/lacuna-kernels/src/statistical/sum.rs: col_sums_f64", "crates/lacuna-kernels/src/statistical/sum.rs: row_sums_csc_f64", "crates/lacuna-kernels/src/statistical/sum.rs: col_sums_csc_f64", "crates/lacuna-kernels/src/statistical/sum.rs: row_sums_coo_f64", "crates/lacuna-kernels/src/statistical/sum.rs: col_sums_coo_f64"]}
{"id": "C71", "title": "Matrix products in binary64: error bound for every execution", "statement": "In floating-point arithmetic the sparse-dense products (matrix-vector, contraction over rows, matrix-matrix; CSR, CSC, COO and the automatic choice) return in every cell a sum, in some order and bracketing, of the rounded products of the stored values with their factors, or (CSR matrix-vector, CSC contraction) their fused multiply-add accumulation, and never panic on valid operands. Hence, unless something overflows, each cell is finite and at most ((1+eps)^n-1) sum|a x| + n (1+eps)^(n-1) eta away from the exact value, n being the number of stored values used. With integer multiples of powers of two and absolute sum of products below 2^53 units the result is exact. With a zero weight and an infinite or NaN entry the CSR contraction returns 0 and the CSC contraction NaN.", "quantifier": "all matrices, dense operands, thread counts, strategies, divisions and merge orders, all finite binary64 values", "why_tests_cant": "Different kernels accumulate differently (fused, unrolled, striped, hashed); the bound holds for all of them and shows no term is lost.", "anchors": ["crates/lacuna-kernels/src/linalg/matmul.rs: spmv_f64_i64", "crates/lacuna-kernels/src/linalg/matmul.rs: spmv_csc_f64_i64", "crates/lacuna-kernels/src/linalg/matmul.rs: spmv_coo_f64_i64", "crates/lacuna-kernels/src/linalg/matmul.rs: spmm_f64_i64", "crates/lacuna-kernels/src/linalg/matmul.rs: spmm_csc_f64_i64", "crates/lacuna-kernels/src/linalg/matmul.rs: spmm_coo_f64_i64", "crates/lacuna-kernels/src/linalg/matmul.rs: spmm_auto_f64_i64", "crates/lacuna-kernels/src/linalg/vecdot.rs"]}
{"id": "C72", "title": "matmul, tensordot and vecdot on the Python objects", "statement": "For objects of class CSR, CSC and COO whose arrays pass the native validation, matmul (vector, matrix, batched), tensordot (axes=1 or ([1],[0])) and vecdot (last axis or axis 0) with a dense operand of the right shape have exactly one outcome, the mathematical product with the documented shape; the same for tensordot and vecdot of a valid COOND object. Other axes and shapes raise the stated exception before any kernel runs. In any arithmetic no call on a validated object reaches undefined behaviour. Proved failures: CSC/COO objects built with the default check=True from arrays that fail the validation, and COOND objects with a stray coordinate, reach undefined behaviour through tensordot or vecdot; only the first entry of each axes list is read; the COOND result flattens the axes of the dense operand; negative axes and one-dimensional COOND vecdot never give a result.", "quantifier": "all classes, shapes, arrays, dense operands, axes arguments, both builds, all thread counts and schedules", "why_tests_cant": "The wrappers mix handle, unchecked arrays and native methods depending on class and axis; a swapped argument or a missing check shows only for particular combinations.", "anchors": ["python/lacuna/array_api/linalg/__init__.py: matmul", "python/lacuna/array_api/linalg/__init__.py: tensordot", "python/lacuna/array_api/linalg/__init__.py: vecdot", "python/lacuna/sparse/csr.py: CSR.__matmul__", "python/lacuna/sparse/csc.py: CSC.__matmul__", "python/lacuna/sparse/coo.py: COO.__matmul__", "python/lacuna/sparse/coond.py: COOND.__init__", "crates/lacuna-py/src/array_api/linalg.rs"]}
{"id": "C73", "title": "Python programs over CSR, CSC, COO and COOND do what their types say", "statement": "For any program composed of literals of the four classes (constructor calls with check=True), abs, negative, sign, the seven binary operators between sparse objects and with scalars on either side, T, prune, eliminate_zeros, reshape, permute_dims, reduce_sum_axes, reduce_mean_axes, axes_unfold_to_csr/csc and mode_unfold_to_csr/csc: if CSC, COO and COOND literals are valid and intermediate results fit into memory, a small type checker that looks only at classes and shapes predicts the outcome of every execution. If it accepts, the program returns an object of the predicted class and shape that satisfies the invariants of its class, with native copy and arrays in agreement; otherwise it raises exactly the predicted exception. There is exactly one outcome, the same in both builds, and never undefined behaviour. Proved failures: the broadcasting example of the COOND documentation panics; mode_unfold_to_csc returns the transpose of the documented shape; COOND((2,3),[0,5],[v]).mode_unfold_to_csr(0).T is undefined behaviour with the default check.", "quantifier": "all programs of any size, all values in any arithmetic, all thread counts, schedules, hash orders and correct sorts, both builds", "why_tests_cant": "Pipelines mix classes, views and native handles that are trusted without validation; tests cover single calls on single classes.", "anchors": ["python/lacuna/array_api/_dispatch/elementwise.py", "python/lacuna/array_api/_dispatch/manipulation.py", "python/lacuna/sparse/csr.py", "python/lacuna/sparse/csc.py", "python/lacuna/sparse/coo.py", "python/lacuna/sparse/coond.py", "crates/lacuna-py/src/array_api/manipulation.rs", "crates/lacuna-py/src/array_api/reduce.rs", "crates/lacuna-py/src/array_api/utility.rs"]}
{"id": "C74", "title": "Python programs over CSR, CSC, COO and COOND compute the dense result", "statement": "In exact arithmetic, every program of C73 whose nonlinear steps (abs, sign, floor division, remainder, power by a scalar, prune) act on arrays that store no coordinate twice, and that does not raise a sparse array to a sparse power, returns - in every execution, with any number of threads, in both builds - an array whose every cell equals the one computed by the same program over dense arrays (with x/0 = x//0 = x%0 = 0 for two sparse operands). Hence two programs that denote the same array, such as (A+B).T and A.T+B.T, return equal arrays. The excluded cases are genuine: abs of a COO with cancelling duplicates is not zero, and A**B differs between two representations of the same B.", "quantifier": "all programs, all valid literals, all in-bounds cells, all environments", "why_tests_cant": "The composition of the operations on unbounded shapes, not only each kernel, must compute what a user of a NumPy-like library expects; duplicates and explicit zeros are where sparse libraries silently differ.", "anchors": ["python/lacuna/sparse/csr.py:CSR", "python/lacuna/sparse/csc.py:CSC", "python/lacuna/sparse/coo.py:COO", "python/lacuna/sparse/coond.py:COOND", "python/lacuna/array_api/_dispatch/elementwise.py"]}
{"id": "C75", "title": "Per-line products, minima, variances, all and any at pointer level", "statement": "row_prods/row_mins/row_maxs/row_vars/row_alls/row_anys of CSR and the col_* kernels of CSC return or panic for any three arrays and any shape, and for pointers in order within the arrays compute exactly the list-level results, in debug and release builds. The kernels across the lines (columns of CSR, rows of CSC) are exact for valid matrices that store no position twice, under every schedule, and equal the reductions of the dense lines; with one stored index outside the shape every run of a column reduction of CSR (row reduction of CSC) has undefined behaviour.", "quantifier": "all pointer, index and value arrays, all shapes, thread counts, schedules, sorts, build profiles", "why_tests_cant": "prod, min, max, var, std, all and any with an axis call these kernels with check=False on arrays the library never validates", "anchors": ["crates/lacuna-kernels/src/statistical/prod.rs", "crates/lacuna-kernels/src/statistical/minmax.rs", "crates/lacuna-kernels/src/statistical/varstd.rs", "crates/lacuna-kernels/src/statistical/logic.rs", "crates/lacuna-kernels/src/linalg/matrix_transpose.rs"]}
{"id": "C76", "title": "Reductions of Python objects, from the axis argument to the pointer-level kernels", "statement": "sum, mean, prod, var and std of a valid CSR, CSC or COO object, over any axes that exist and with or without keepdims, have an outcome under every schedule and build profile, and every outcome is the dense array that reduces the cells of the matrix along these axes (exact arithmetic); the same for min, max, all and any. sum and mean of a valid COOND return the sum or mean of all cells, or, over axes that leave one, the same valid COOND with the reduced shape and the fibre sums or means. The same holds with a program over the sparse classes in place of the object, and a program that raises still raises. Axes that do not exist raise ValueError, axis=() NotImplementedError, mean of a matrix without cells ZeroDivisionError; prod, var, std, all, any, min and max of a COOND never succeed, and naming all axes of a COOND panics.", "quantifier": "all objects, programs, axis arguments, keepdims, numbers of threads, schedules, sorts, build profiles", "why_tests_cant": "an axis argument can be None, an int or a tuple with negative and repeated entries, and every kernel behind it has several execution paths; the failing COOND reductions are never called by the test suite", "anchors": ["python/lacuna/array_api/_dispatch/reductions.py", "python/lacuna/sparse/coond.py", "crates/lacuna-py/src/array_api/reduce.rs", "crates/lacuna-kernels/src/statistical/sum.rs", "crates/lacuna-kernels/src/statistical/varstd.rs"]}
{"id": "C77", "title": "Cumulative sums and products, differences and counts of Python objects and programs", "statement": "cumsum and cumprod of a valid CSR, CSC or COO object along one axis, under every schedule and in both builds, return the dense array of partial sums or products (over any semiring); for a CSC matrix along the rows this holds when no row stores two entries, and in general the shape and size are right and one possible outcome is the right one. diff(x, n, axis) returns an object of the same class with the n-th differences (over any abelian group); CSR and COO results are valid and store no cell twice, a CSC result may have unsorted lines. count_nonzero of a matrix without stored zeros and duplicates counts the nonzero elements, hence also after eliminate_zeros(). The same holds with a program over the sparse classes in place of the object, in exact arithmetic, and a program that raises still raises. Missing or invalid axes, both axes, negative n and COOND inputs raise the stated exceptions. Proved failures: cumsum(axis=1) of the CSC matrix [5, 7] can return [12, 12]; a CSR matrix with five entries and more than 2^64 cells makes cumsum write out of bounds in a release build; diff of a valid CSC matrix can return an invalid one; count_nonzero counts stored zeros.", "quantifier": "all objects, programs, axis arguments, orders n, numbers of threads, schedules, sorts, build profiles", "why_tests_cant": "the dense result size is computed by an unchecked product, and CSC inputs go through a racy conversion whose order matters to the row kernels but not to the column kernels", "anchors": ["python/lacuna/array_api/_dispatch/reductions.py: diff", "python/lacuna/array_api/_dispatch/reductions.py: cumsum", "python/lacuna/array_api/_dispatch/reductions.py: cumprod", "python/lacuna/array_api/_dispatch/searching.py: count_nonzero", "crates/lacuna-py/src/array_api/reduce.rs", "crates/lacuna-py/src/array_api/manipulation.rs", "crates/lacuna-kernels/src/statistical/cumulative.rs", "crates/lacuna-kernels/src/manipulation/diff.rs"]}
{"id": "C78", "title": "matmul, tensordot and vecdot, on objects and at the end of programs, are the contractions NumPy documents", "statement": "For a valid CSR, CSC, COO or COOND object and a dense array, each of matmul, tensordot and vecdot either raises a determined exception (tables of conditions on the arguments and shapes, one for two-dimensional objects and one for COOND; the tables have no entry exactly when the arguments ask for a contraction NumPy documents with matching lengths) or has exactly one possible outcome: the array in which one axis of the dense operand is contracted with the columns (vecdot axis=0: the rows) of the matrix and replaced by the remaining axis; for COOND a valid COOND whose cells are the sums over the contracted axis, with the remaining axes of the dense operand flattened into one by tensordot. The same holds at the end of every expression program whose value is such an object, with the cells of the program; the exceptions and the absence of undefined behaviour hold in any arithmetic. A sparse right operand is always refused.", "quantifier": "all formats, shapes, axes arguments, dense operands and thread interleavings; for programs, all programs; the sizes must fit into memory", "why_tests_cant": "the axis arguments are checked in several places (Python dispatch, bindings, kernels) and only a few combinations are supported; an axis that is accepted but interpreted differently gives wrong numbers of the right shape", "anchors": ["python/lacuna/array_api/linalg/__init__.py: matmul", "python/lacuna/array_api/linalg/__init__.py: tensordot", "python/lacuna/array_api/linalg/__init__.py: vecdot", "crates/lacuna-py/src/array_api/linalg.rs", "crates/lacuna-kernels/src/linalg/matmul.rs", "crates/lacuna-kernels/src/linalg/tensordot.rs", "crates/lacuna-kernels/src/linalg/vecdot.rs"]}
{"id": "C79", "title": "Python programs, bit by bit: the stored entries of every result in any arithmetic, and reproducibility", "statement": "Without any law of arithmetic (so with +, *, /, ... read as the IEEE operations): every execution of an expression program over CSR, CSC, COO and COOND objects with valid literals that fits into memory and unfolds no array with a coordinate stored twice returns the object of the computed class and shape whose stored entries, values and storage order, are those given by an operation-by-operation specification (Prog.stores), or raises the computed exception. Class, shape and stored entries determine the object, so the outcome is the same on every machine: number of threads, schedule, hash order, unstable sorts and build profile do not change a bit. Consequences in any arithmetic: A.T.T is A, (A op B).T is A.T op B.T for every operator, pruning twice is pruning once, reshaping twice is reshaping once. Proved exceptions: unfolding an array with a coordinate stored three times returns different matrices on machines that differ only in how the unstable sort leaves equal keys, as soon as (x + y) + z and (z + y) + x differ; eliminate_zeros keeps a stored NaN exactly if no entry is zero.", "quantifier": "all programs, arithmetics, machines (threads, schedules, sorts, hash orders), build profiles", "why_tests_cant": "bitwise reproducibility is a statement about all schedules and all machines; tests compare with tolerances on one machine", "anchors": ["crates/lacuna-kernels/src/elementwise/multiply.rs", "crates/lacuna-kernels/src/data_type_functions/astype.rs", "crates/lacuna-kernels/src/utility/prune.rs", "crates/lacuna-kernels/src/utility/eliminate_zeros.rs", "python/lacuna/sparse/csr.py", "python/lacuna/sparse/csc.py", "python/lacuna/sparse/coo.py", "python/lacuna/sparse/coond.py"]}
{"id": "C80", "title": "Reading the results of Python programs: toarray, nnz, subscripts and comparisons", "statement": "For every expression program over CSR, CSC, COO and COOND objects as in C79 there is exactly one outcome of each of the following, on every machine and in any arithmetic (no algebraic law): e.toarray() is the dense array whose cells are the stored entries, with zero elsewhere (for COO the entries stored under a cell are added to a zero in storage order), AttributeError for a COOND; e.nnz is the number of stored entries; e[i, j], e[i, :], e[:, j] of a CSR object give the cell, row or column (IndexError for a cell or row out of range, zeros for a column out of range, and for negative rows what a lookup among the row pointers gives: e[-1, :] is a row of zeros and e[-2, :] the last row), other keys NotImplementedError, other classes TypeError; equal, not_equal, less, less_equal, greater and greater_equal of two operands, at least one of them a program and the other a program, a dense array or a scalar, raise the exception of the left operand, else of the right one, ValueError if the shapes do not broadcast, and otherwise return the array of the comparisons of the broadcast cells. The dense form of e.T is the transpose of that of e bit by bit. In exact arithmetic the cells are those of the array the program denotes (C74), and two programs of one shape compare equal everywhere exactly if they denote the same array.", "quantifier": "all programs, arithmetics, machines, keys, comparison operators, shapes of the other operand", "why_tests_cant": "what a user sees of a sparse result is its dense form; the statement fixes it for all programs, including the accumulation order of duplicates and NumPy broadcasting", "anchors": ["python/lacuna/sparse/csr.py", "python/lacuna/sparse/csc.py", "python/lacuna/sparse/coo.py", "python/lacuna/sparse/coond.py", "python/lacuna/sparse/base.py", "python/lacuna/array_api/_dispatch/elementwise.py"]}
{"id": "C81", "title": "Sessions: writing to the NumPy arrays of sparse objects after their construction", "statement": "Let Python code create integer and float64 arrays, construct CSR, CSC, COO and COOND objects on them (several objects may share an array), apply the functions and methods of the program language to objects, and overwrite arrays of values in place, in any order and number, with valid constructor arguments and results that fit into memory. Then every statement has exactly one outcome, a new state or an exception, and never undefined behaviour. Every object has two contents, the one copied at construction and the one in its arrays now; each function and each reading method uses one of the two, determined by the function alone: negative, multiplication and division by scalars, T, prune, eliminate_zeros, the binary operators except remainder and power, sum, mean and the products through @ use the copy, all others the arrays (COOND has no copy). A function applied to objects evaluates the program whose literals are these contents. A write changes the present contents of exactly the objects holding the array and only their values, no copy, and no result computed before; without writes the two contents agree. Functions that use the copy are unaffected by arbitrary writes, also to index arrays. After a write the two families of methods disagree about the same object, and a write to an index array of a validated object makes remainder and power read outside the arrays.", "quantifier": "all finite sequences of statements of that language, all arithmetics, schedules, thread counts and build profiles", "why_tests_cant": "NumPy users modify arrays in place; the constructors keep references to the caller's arrays without copying while the native handle holds a copy, so the aliasing rules decide what every later call computes and whether it is memory safe", "anchors": ["python/lacuna/sparse/csr.py", "python/lacuna/sparse/csc.py", "python/lacuna/sparse/coo.py", "python/lacuna/sparse/coond.py", "crates/lacuna-py/src/types/csr.rs", "crates/lacuna-py/src/types/csc.rs", "crates/lacuna-py/src/types/coo.rs"]}
{"id": "C82", "title": "Reductions in machine arithmetic: every cell is made of the stored numbers, each used once", "statement": "Without any law of arithmetic (rounding, infinities, signed zeros and NaN included): sum, mean, prod, var, std, min, max, all and any of a valid CSR, CSC or COO object, and sum and mean of a valid COOND, over any axes that exist and with or without keepdims, have an outcome under every schedule, and every outcome is a dense array of the reduced shape. Each of its cells is computed from the numbers stored along the reduced axes, each used exactly once: sum adds them in some order and bracketing, mean divides such a sum by the number of cells, var and std use such sums of the numbers and of their squares, min and max compare them, and a zero if a cell has no entry, in some order, prod multiplies them if there are as many as cells and is zero otherwise; all and any test cell by cell whether the sum of its numbers is not zero. The same holds with a program over the sparse classes in place of the object, with the numbers the program stores. It follows that sums of programs satisfy the error bound of floating-point summation, that a stored NaN makes the sum a NaN, that min returns a stored number, a zero or the starting infinity, and that prod of a matrix with an unstored cell is zero even if a NaN is stored.", "quantifier": "all objects, programs, axis arguments, keepdims, arithmetics, numbers of threads, schedules, sorts, build profiles", "why_tests_cant": "parallel reductions are not reproducible, so a test compares with a tolerance and cannot tell a dropped or doubled small number from rounding; NaN and overflow paths are rarely sampled", "anchors": ["python/lacuna/array_api/_dispatch/reductions.py", "python/lacuna/sparse/coond.py", "crates/lacuna-py/src/array_api/reduce.rs", "crates/lacuna-kernels/src/statistical/sum.rs", "crates/lacuna-kernels/src/statistical/varstd.rs", "crates/lacuna-kernels/src/statistical/minmax.rs"]}
{"id": "C83", "title": "Operator syntax on sparse objects: x + y, 2 * x, x / 3 and all expressions of operators and calls", "statement": "For CSR, CSC, COO and COOND objects and +, -, *, /, //, %, ** (Python's protocol: __op__ of the left operand, then __rop__ of the right one, TypeError if neither answers): + and - of two CSR or two CSC objects do exactly what add and subtract do; every other operator between two sparse objects raises TypeError whatever the shapes, although multiply, divide, ... of the same two objects may return; x * a, a * x, x / a, x // a, x % a, x ** a with a number a of a CSR, CSC or COO object do exactly what the functions do (ZeroDivisionError for a zero divisor of /), a missing operator raises TypeError; a numeric string is accepted as a number by those that convert with float() and any other string raises ValueError or TypeError as tabulated. Consequently every execution of an expression mixing operators and calls, with valid literals and results that fit into memory, raises the exception, or returns an object of the class and shape, given by a checker that follows the operators left to right; if it returns, the result is one of the function-call program obtained by replacing each operator with its function. The named methods return the constant NotImplemented instead of raising for an operand of another kind, and the functions raise NotImplementedError for mixed classes where the operators raise TypeError.", "quantifier": "all objects, scalars, strings, expressions, arithmetics, schedules, sorts, build profiles", "why_tests_cant": "users write x + y and 2 * x, not add(x, y); the special methods have their own type checks, conversions and fallbacks, and a fault in one (a wrong fallback, a missing __rmul__) is invisible to tests of the functions", "anchors": ["python/lacuna/sparse/csr.py", "python/lacuna/sparse/csc.py", "python/lacuna/sparse/coo.py", "python/lacuna/sparse/coond.py", "python/lacuna/sparse/base.py"]}
{"id": "C84", "title": "The array API namespace: every public name answers for sparse and dense arguments as its guard promises", "statement": "Each of the 135 public names of lacuna.array_api is a dispatching function, a forwarding stub, a creation function or a constant. A stub passes each of its parameters on to NumPy exactly once, by position or under its own name, so a call with a sparse object in any parameter raises NotImplementedError before NumPy sees it and a call without one is NumPy's call with the same arguments; the only leak is a sparse object inside a list or tuple (concat, stack, ...), which the guard does not look into. Each one-argument dispatching function handles or refuses every sparse class, except that count_nonzero and matrix_transpose hand a COOND to NumPy, and passes dense arguments to NumPy; each two-argument one goes to NumPy exactly if neither operand is sparse. The products run a sparse implementation exactly for a sparse object (for matmul not a COOND) on the left of an array, the comparisons refuse nothing, and the arithmetic functions refuse a sparse object together with anything that is neither sparse nor a number. capabilities reports a subset of the implemented functions: all, any, diff and astype are implemented but not reported.", "quantifier": "all argument values and keyword combinations, all public names", "why_tests_cant": "a sparse object that slips through to NumPy becomes a 0-d object array and gives a silently wrong answer instead of an error; one missing guard among 135 names is easily overlooked", "anchors": ["python/lacuna/array_api/__init__.py", "python/lacuna/array_api/_namespace.py", "python/lacuna/array_api/_dispatch/elementwise.py", "python/lacuna/array_api/_dispatch/reductions.py", "python/lacuna/array_api/_dispatch/searching.py", "python/lacuna/array_api/linalg/__init__.py", "python/lacuna/array_api/dtypes/__init__.py", "python/lacuna/array_api/manipulation/__init__.py"]}
{"id": "C85", "title": "Data type promotion, devices, astype and the number of threads", "statement": "promote_dtypes of two of int32, int64, float32, float64 is their least upper bound in the order int32 <= int64 <= float64, int32 <= float32 <= float64, and any other string on either side raises TypeError; so promotion is commutative and associative for all strings, and never shrinks the size dtype_size gives. uint32 and uint64 have a size and count as integers but do not promote, not even with themselves, and int32 with float32 gives float32, which cannot represent every int32. A device is valid exactly if it is listed; device_info answers exactly for those and zeros and eye accept exactly those. astype(x, float64) of a valid CSR returns an equal object with its own native copy, all other types and classes are refused. get_num_threads is positive after every history of set_num_threads with numbers from 1 on, changes of the environment and runs; set_num_threads(n) for n >= 1 is what it returns next and nothing happens for n <= 0; before the first parallel kernel it decides the size of the thread pool, afterwards the pool never changes and get_num_threads reports a number that is not used.", "quantifier": "all strings, objects and sequences of calls", "why_tests_cant": "promotion tables are wrong in single cells that tests do not sample; the thread setting silently has no effect after the first kernel", "anchors": ["crates/lacuna-py/src/array_api/dtypes.rs", "crates/lacuna-py/src/array_api/devices.rs", "python/lacuna/_runtime.py", "python/lacuna/array_api/dtypes/__init__.py", "python/lacuna/sparse/csr.py"]}
{"id": "C86", "title": "matmul, tensordot and vecdot in machine arithmetic: every element is made of the stored numbers of its line", "statement": "Without any law of arithmetic except that the product is commutative (rounding, infinities, signed zeros and NaN included): matmul, tensordot and vecdot of a valid CSR, CSC or COO object with a dense array, with arguments NumPy documents and matching lengths, have an outcome under every schedule, and every outcome is a dense array of the documented shape. Each element is computed from the numbers stored in its row (vecdot axis=0: its column) and the elements of the dense operand that belong to them, each pair used once and nothing else: with two or more axes the products are added in storage order; with a vector CSR (axis=0: CSC) folds fused multiply-adds in storage order; otherwise the products are added in some order and bracketing, and vecdot axis=0 of CSR and COO leaves out pairs with a zero weight. In the ordered cases the bits do not depend on the build, the number of threads or the schedule, and with two or more axes not on the class as long as the rows hold the same numbers in the same order. The same holds with a program over the sparse classes in place of the object, with the numbers the program stores. It follows that in binary64 every element satisfies the error bound of a dot product, is exact for multiples of powers of two below 2^53 units, and is NaN if one of its factors is, except a stored NaN with a zero weight in vecdot axis=0 of CSR and COO: there CSR returns 0 where CSC returns NaN.", "quantifier": "all objects, programs, dense operands, axes, arithmetics with commutative products, numbers of threads, schedules, build profiles; the sizes must fit into memory", "why_tests_cant": "parallel products are compared with a tolerance, which hides a dropped or doubled small term; the formats agree on ordinary numbers and differ on NaN and infinities only with a zero weight", "anchors": ["python/lacuna/array_api/linalg/__init__.py: matmul", "python/lacuna/array_api/linalg/__init__.py: tensordot", "python/lacuna/array_api/linalg/__init__.py: vecdot", "crates/lacuna-py/src/array_api/linalg.rs", "crates/lacuna-kernels/src/linalg/matmul.rs", "crates/lacuna-kernels/src/linalg/tensordot.rs", "crates/lacuna-kernels/src/linalg/vecdot.rs"]}
{"id": "C87", "title": "Cumulative sums and products and differences of Python objects and programs in any arithmetic", "statement": "cumsum and cumprod of a valid CSR, CSC or COO object along one axis, and of a program whose value is such an object, in any arithmetic (no algebraic law assumed), under every schedule and in both builds: the call has an outcome, and every outcome is the dense array of the right shape whose element at a cell is accumulated from left to right, starting at 0 or 1, over the cells up to this one; empty cells are left out of a sum and turn a product into 0; a cell that holds several numbers contributes their sum in some order. Hence one fixed result if no cell is stored twice, an error bound for cumsum under any rounding model, and NaNs are passed on by cumsum. A CSC matrix scanned along the rows must not store two entries in a row; otherwise the call is still safe, has the right shape and one right outcome. diff(x, n, axis) never has undefined behaviour and returns an object of the same class and of the right shape that stores no cell twice; if addition is commutative it holds exactly the repeated differences computed in this arithmetic with zeros dropped, and under the usual laws of subtraction its elements are those of the dense differences up to the sign of zeros. Proved disagreement: cumprod returns 0 after an empty cell even if a NaN or an infinity is stored, where the dense product is NaN.", "quantifier": "all arithmetics, objects, programs, axis arguments, orders n, numbers of threads, schedules, sorts, build profiles", "why_tests_cant": "that floating-point results do not depend on the schedule, and what happens to NaN, infinities and signed zeros at empty cells, is a statement about every order of additions and every value", "anchors": ["python/lacuna/array_api/_dispatch/reductions.py: diff", "python/lacuna/array_api/_dispatch/reductions.py: cumsum", "python/lacuna/array_api/_dispatch/reductions.py: cumprod", "crates/lacuna-py/src/array_api/reduce.rs", "crates/lacuna-py/src/array_api/manipulation.rs", "crates/lacuna-kernels/src/statistical/cumulative.rs", "crates/lacuna-kernels/src/manipulation/diff.rs"]}
{"id": "C88", "title": "Programs in IEEE binary64 compute what NumPy computes with dense arrays", "statement": "In binary64 with signed zeros, infinities and NaN, for programs over CSR and CSC matrices built from abs, negation, sign, addition, subtraction, products of finite elements, quotients with finite results, products with finite numbers (zero only with finite elements), quotients by powers of two and transposition: toarray has one outcome on every machine, and its elements are those NumPy computes with dense arrays, rounding, overflow, infinities and NaN included, up to the sign of zeros. For these programs and those that also use quotients, floor divisions and remainders of arrays or by numbers and prune: sums and means along axes are within the error bound of summation of binary64 numbers over the dense elements, and a NaN makes a sum a NaN; variances and standard deviations are never negative and a standard deviation is a NaN only if the variance is; cumsum and diff are NumPy's results up to the sign of zeros; matmul, tensordot and vecdot with a dense array are within the error bound of dot products of the dense elements. The operations of the model return a nearest representable number, as IEEE 754 demands.", "quantifier": "every such program, every dense operand, every execution environment (build, sort routines, threads, schedules)", "why_tests_cant": "The claim is about every pair of floating-point numbers, every program and every schedule; tests compare a few with a tolerance, which hides a lost NaN, a double rounding or an overflow.", "anchors": ["python/lacuna/array_api/_dispatch/elementwise.py", "python/lacuna/array_api/_dispatch/reductions.py", "crates/lacuna-kernels/src/elementwise/add.rs", "crates/lacuna-kernels/src/elementwise/subtract.rs", "crates/lacuna-kernels/src/elementwise/multiply.rs", "crates/lacuna-kernels/src/elementwise/divide.rs", "crates/lacuna-kernels/src/elementwise/sign.rs", "crates/lacuna-kernels/src/statistical/sum.rs", "crates/lacuna-kernels/src/statistical/mean.rs", "crates/lacuna-kernels/src/statistical/varstd.rs", "crates/lacuna-kernels/src/statistical/cumulative.rs", "crates/lacuna-kernels/src/manipulation/diff.rs", "crates/lacuna-kernels/src/linalg/matmul.rs"]}
{"id": "C89", "title": "Whole numbers up to 2^53 are computed with exactly", "statement": "In binary64, for programs over CSR and CSC matrices of whole numbers built from abs, negation, sign, addition, subtraction, elementwise products, products with whole numbers, floor divisions and remainders, prune, eliminate_zeros and transposition, in which no exact intermediate element exceeds 2^53 in absolute value: toarray returns exactly the integer result, element by element, on every machine. For matrices of whole numbers, sum along axes is the exact sum if the absolute values of the summed elements add up to at most 2^53, prod the exact product if the absolute values multiply to at most 2^53, cumsum the exact prefix sums, diff of order n the exact n-th differences if the elements are at most 2^53/2^n, and matmul, tensordot and vecdot with a dense array of whole numbers the exact dot products if the absolute values of the products add up to at most 2^53, for every number of threads and every order of the additions.", "quantifier": "every such program, dense operand, axis, order of differences, execution environment (build, sort routines, threads, schedules)", "why_tests_cant": "Exactness for counts, adjacency matrices and other integer data depends on no partial sum in any schedule leaving the exact range, which is a statement about every order of additions and every input.", "anchors": ["python/lacuna/array_api/_dispatch/elementwise.py", "python/lacuna/array_api/_dispatch/reductions.py", "crates/lacuna-kernels/src/elementwise/add.rs", "crates/lacuna-kernels/src/elementwise/subtract.rs", "crates/lacuna-kernels/src/elementwise/multiply.rs", "crates/lacuna-kernels/src/statistical/sum.rs", "crates/lacuna-kernels/src/statistical/prod.rs", "crates/lacuna-kernels/src/statistical/cumulative.rs", "crates/lacuna-kernels/src/manipulation/diff.rs", "crates/lacuna-kernels/src/linalg/matmul.rs", "crates/lacuna-kernels/src/linalg/tensordot.rs", "crates/lacuna-kernels/src/linalg/vecdot.rs"]}
{"id": "C90", "title": "Division, floor division and remainder by a number in binary64", "statement": "For every program of C88 followed by an operation with a number alpha, on every machine: x / alpha multiplies by the rounded reciprocal, and for 2^-1022 <= |alpha| <= 2^1022 each element is within (2^-52 + 2^-106)|d/alpha| + 2^-1075 of the quotient unless that overflows; floor_divide by a finite number gives the floor of the quotient or the whole number above it, for quotients below 2^53; for whole numbers below 2^53 floor_divide is exactly the floor of the quotient, and remainder is exactly d - alpha * floor(d/alpha) if |d| + |alpha| <= 2^53. Proved disagreements with NumPy, in every execution: [[5]] / 3 is not the nearest number to 5/3; [[5e-324]] / 5e-324 is infinite; [[nan]] / inf, [[inf]] / inf and [[nan]] * 0 are 0; an infinity times a missing entry and a number over a missing entry are 0, and so is a quotient that overflows; floor_divide([[1]], 0.1) is 10 and remainder([[1]], 0.1) is 0; remainder([[3.9]], 1.3) is negative.", "quantifier": "every program, divisor, element and execution environment (build, sort routines, threads, schedules)", "why_tests_cant": "The error bounds and the exactness for whole numbers are statements about all pairs of floating-point numbers; tests with tolerances hide both the doubled rounding error and the wrong floor.", "anchors": ["python/lacuna/array_api/_dispatch/elementwise.py: divide", "python/lacuna/array_api/_dispatch/elementwise.py: floor_divide", "python/lacuna/array_api/_dispatch/elementwise.py: remainder", "crates/lacuna-kernels/src/elementwise/divide.rs", "crates/lacuna-kernels/src/elementwise/floor_divide.rs", "crates/lacuna-kernels/src/elementwise/remainder.rs", "crates/lacuna-kernels/src/elementwise/multiply.rs"]}
{"id": "C91", "title": "Accuracy of variances and standard deviations in binary64", "statement": "For every program of C88, and every program of C96 over all four classes with a 2-D value, axis and whole correction c < n (n and |c| at most 2^52): each element of var is the variance of the n dense elements, that is the sum of the squared distances from the mean divided by n - c, up to 2((1+2^-53)^(2n+4) - 1) * (sum of squares) / (n - c) plus underflow, unless the squares are too large; std is the rounded square root of such a non-negative number; for every number of threads and every order of the additions. The bound is relative to the sum of the squares, not to the variance, and this is necessary: var([[2^27, 2^27 + 1]]) is 0 in every execution, where the variance is 1/4 and the formula NumPy documents gives 1/4.", "quantifier": "every program, axis, correction, number of threads, schedule, build", "why_tests_cant": "An error bound for all inputs and all orders of additions cannot be tested; catastrophic cancellation appears only for data with a large mean.", "anchors": ["python/lacuna/array_api/_dispatch/reductions.py: var", "python/lacuna/array_api/_dispatch/reductions.py: std", "crates/lacuna-kernels/src/statistical/varstd.rs: variance_from_sums", "crates/lacuna-kernels/src/statistical/varstd.rs"]}
{"id": "C92", "title": "Every single floating-point operation is rounded as IEEE 754 prescribes", "statement": "The operations the kernels perform on finite f64 values are IEEE 754's: a sum, difference, product, quotient, fused product or conversion of a count is the exact result rounded to the nearest binary64 number, a tie goes to the even one, results from 2^970 (2^54 - 1) on become an infinity of their sign, and these rules admit exactly one result; the signs of zero results follow the standard; floor is exact; no binary64 number is closer to the square root than the one returned, so each standard deviation is the number closest to the root of a variance within the bound of C91, with relative error at most 2^-53 for the root. On infinities and NaN, too, they are the standard's: it is stated which results are NaN and what every other result with an infinite operand or a zero divisor is, and < and == are the order and equality of the extended real numbers, false for NaN.", "quantifier": "all operands, rounding for all finite ones; for standard deviations every program, axis, correction, thread count and schedule", "why_tests_cant": "Ties, overflow thresholds and subnormal results are rare among random inputs, and there are 2^128 pairs of operands.", "anchors": ["crates/lacuna-kernels/src/statistical/varstd.rs", "crates/lacuna-kernels/src/elementwise/divide.rs", "crates/lacuna-kernels/src/elementwise/floor_divide.rs", "crates/lacuna-kernels/src/linalg/matmul.rs", "python/lacuna/array_api/_dispatch/reductions.py: std"]}
{"id": "C93", "title": "Layout and dtype of dense arguments", "statement": "matmul, tensordot and vecdot read a dense argument in logical order whatever its memory layout: every call with an array that is a strided, reversed, transposed or Fortran-ordered view, or of another dtype, either raises TypeError or does exactly what it does with a contiguous float64 copy of the same elements. Which of the two happens is determined: matmul fails only for a one-dimensional float64 view that is not contiguous; tensordot with two or more dimensions fails for every other dtype and for views whose flattening has gaps; vecdot converts other dtypes along axis 1 and refuses them along axis 0; COOND converts nothing. The constructors build the same object from contiguous one-dimensional views, and from other arrays CSR raises when validating while CSC and COO return an object every native call refuses; COOND accepts a two-dimensional index array that no call accepts. The one binding that would read a Fortran-ordered matrix column by column is never reached.", "quantifier": "for all objects, views (shapes, strides, offsets), dtypes, axes, thread counts and runs", "why_tests_cant": "tests multiply fresh contiguous float64 arrays; the space of strides and dtypes is infinite and one wrong as_slice silently transposes an operand", "anchors": ["python/lacuna/array_api/linalg/__init__.py:17-196", "crates/lacuna-py/src/array_api/linalg.rs:20-345", "crates/lacuna-py/src/types/csr.rs:19-79", "python/lacuna/sparse/csr.py:65-83", "python/lacuna/sparse/coond.py:98-108"]}
{"id": "C94", "title": "Quotients of two arrays in IEEE binary64", "statement": "In binary64, divide, floor_divide and remainder of two CSR or CSC arrays have one outcome on every machine. Its elements are x / y, floor(x / y) and x - y * floor(x / y) of IEEE 754 wherever these are finite, up to the sign of zeros, and zero everywhere else; in particular they are zero where the divisor is zero, where an operand is NaN and where the dividend is infinite, whatever is stored. Finite quotients that do not overflow are rounded once: no binary64 number is closer to the exact quotient. Floors are those of the exact quotient or one more. For whole numbers with absolute values up to 2^53 floor divisions and remainders are exact, also inside larger programs.", "quantifier": "for all programs as operands (with any zeros, infinities and NaN in them), all shapes, all execution environments", "why_tests_cant": "tests divide a few small matrices; whether missing entries behave as zeros in all combinations with zeros, infinities and NaN, and which quotients are rounded up to the next whole number, are questions about all pairs of doubles", "anchors": ["python/lacuna/array_api/_dispatch/elementwise.py: divide", "python/lacuna/array_api/_dispatch/elementwise.py: floor_divide", "python/lacuna/array_api/_dispatch/elementwise.py: remainder", "crates/lacuna-kernels/src/elementwise/divide.rs:48-330", "crates/lacuna-kernels/src/elementwise/floor_divide.rs:44-295", "crates/lacuna-kernels/src/elementwise/remainder.rs:29-286"]}
{"id": "C95", "title": "Extrema, products, truth values, counts and comparisons in IEEE binary64", "statement": "In binary64, for every program over CSR and CSC arrays whose elements are those of the dense arrays (C88): min and max return, if no element along the axis is NaN, the smallest and the largest of NumPy's elements up to the sign of zeros; prod returns the exact product of NumPy's elements up to one rounding for each multiplication but one, if they are finite and no partial product is near the ends of the range, and exactly zero if one of them is zero; cumprod returns NumPy's running products, rounding, underflow and overflow included, up to the sign of zeros, but may be zero where NumPy's product is NaN and has a factor zero; all, any and the six comparisons are exactly NumPy's, NaN, infinities and zeros of both signs included; count_nonzero is exactly NumPy's if no zero is stored, and in any arithmetic the number of stored entries.", "quantifier": "for all programs as operands (with any zeros, infinities and NaN in them), all shapes, all axes and keepdims, all schedules and execution environments, all minimum and maximum instructions that are right for numbers that are not NaN", "why_tests_cant": "the numbers are combined in an order that depends on the threads, the chunk sizes and the vector lanes, and missing entries are treated apart from stored zeros; a test sees one order and a few numbers", "anchors": ["python/lacuna/array_api/_dispatch/reductions.py: min", "python/lacuna/array_api/_dispatch/reductions.py: max", "python/lacuna/array_api/_dispatch/reductions.py: prod", "python/lacuna/array_api/_dispatch/reductions.py: cumprod", "python/lacuna/array_api/_dispatch/reductions.py: all", "python/lacuna/array_api/_dispatch/reductions.py: any", "python/lacuna/array_api/_dispatch/searching.py: count_nonzero", "python/lacuna/array_api/_dispatch/elementwise.py: equal", "crates/lacuna-kernels/src/statistical/minmax.rs", "crates/lacuna-kernels/src/statistical/prod.rs", "crates/lacuna-kernels/src/statistical/logic.rs", "crates/lacuna-kernels/src/statistical/cumulative.rs"]}
{"id": "C96", "title": "Programs over all four classes, element by element in IEEE binary64", "statement": "For every program over CSR, CSC, COO and COOND literals that store no coordinate twice - built from abs, negation, sign, sums, differences, (broadcast) products, quotients, floor divisions and remainders of arrays, products, quotients by powers of two, floor divisions and remainders by numbers, T, prune, eliminate_zeros, reshape, permute_axes, mode unfoldings and unfoldings to CSR, CSC and COO - with finite factors wherever a product meets a missing entry, and no NaN where entries are pruned: toarray() of a 2-D result, and the entries of an N-D one, are the elements computed in binary64 by the same program over dense arrays, up to the sign of zeros, with zero where nothing is stored. sum, mean, var, std, min, max, prod, cumsum, cumprod, diff, all, any, count_nonzero, tensordot, matmul, vecdot and the comparisons of such programs are those of C88 and C95 of these elements; sum and mean over all elements of an N-D result are theirs up to one rounding for each addition, and NaN if one of them is.", "quantifier": "for all programs as operands, nested to any depth and crossing between the classes, all numbers in them, all shapes and axes, all execution environments", "why_tests_cant": "each class has its own kernels that treat missing entries, zero entries and duplicates apart, and programs cross between them by unfolding; tests do one operation on a small array", "anchors": ["python/lacuna/sparse/coo.py", "python/lacuna/sparse/coond.py", "crates/lacuna-kernels/src/manipulation/reshape.rs", "crates/lacuna-kernels/src/manipulation/permute_dims.rs", "crates/lacuna-kernels/src/utility/prune.rs", "crates/lacuna-kernels/src/elementwise", "crates/lacuna-kernels/src/statistical", "python/lacuna/array_api/linalg/__init__.py"]}
{"id": "C97", "title": "N-D tensordot and vecdot in the machine's arithmetic and in IEEE binary64", "statement": "tensordot of a COOND and a dense array, and vecdot of a COOND of at least two axes and a dense vector, of arrays and of programs that end with them, have one outcome on every machine, in any arithmetic whatsoever: the entry at u and z is obtained by multiplying each number stored on the line u, in storage order, with the element of the dense array that it meets, leaving out the products that are zero, and adding from the first to the last; tensordot stores no sum that is zero. In any arithmetic with a rounding error the element (zero if nothing is stored) is the exact sum of the products up to one rounding for each multiplication and addition, and it is NaN if a factor of a stored number is. In binary64, for the programs of C96, these are the elements of the dense program: up to that rounding error, exact for whole numbers whose products have absolute values adding up to at most 2^53, and NaN if an element of the line is NaN or an element of the dense array that meets an element other than zero is.", "quantifier": "for all arrays, also with stored zeros, duplicates, infinities and NaN, all programs, all shapes, all axes, all dense operands, all execution environments", "why_tests_cant": "the products go through a hash table whose capacity, probing and growth depend on the number of entries and on the keys, and the columns are unrolled by four with raw pointers; a test compares a small case with NumPy up to a tolerance, so it sees neither the order of the additions nor the products that vanish", "anchors": ["python/lacuna/array_api/linalg/__init__.py:111-137", "python/lacuna/array_api/linalg/__init__.py:179-193", "crates/lacuna-kernels/src/linalg/matmul.rs:229-289", "crates/lacuna-kernels/src/linalg/matmul.rs:832-961"]}
{"id": "C98", "title": "Whole numbers are computed exactly by programs over all four classes, sums over axes inside included", "statement": "Programs over CSR, CSC, COO and COOND literals of whole numbers, built from abs, negation, sign, sums, differences, (broadcast) products, floor divisions and remainders of arrays and by numbers, products with numbers, T, prune, eliminate_zeros, reshape, permute_axes, unfoldings and reduce_sum_axes, in which no exact intermediate result exceeds 2^53 in absolute value (nor the absolute values of what is summed together), are computed exactly in binary64 in every execution: toarray() of a 2-D result and the entries of an N-D result are the rational numbers that the operations stand for, and zero where nothing is stored. So are sum, prod and cumsum of them, and their products with dense arrays of whole numbers by matmul, tensordot and vecdot, on every machine and for every schedule, if the absolute values that are added (multiplied) together stay within 2^53. reduce_sum_axes and reduce_mean_axes of such arrays can also occur inside the programs of C96: the mean is the exact sum times the rounded reciprocal of the number of summed elements.", "quantifier": "for all programs nested to any depth and crossing between the classes, all whole numbers in them, all shapes, axes and dense operands, all schedules and execution environments", "why_tests_cant": "sums over axes go through a hash table and add in the order in which entries are stored, which broadcasting, reshape and permute_axes change; a test sees one order and small arrays, and cannot tell an exact kernel from one that is exact for these numbers", "anchors": ["crates/lacuna-kernels/src/statistical/sum.rs: reduce_sum_axes_coond_f64_i64", "crates/lacuna-kernels/src/statistical/mean.rs: reduce_mean_axes_coond_f64_i64", "crates/lacuna-kernels/src/elementwise", "crates/lacuna-kernels/src/manipulation", "python/lacuna/sparse/coond.py", "python/lacuna/array_api/_dispatch/reductions.py: sum", "python/lacuna/array_api/_dispatch/reductions.py: prod", "python/lacuna/array_api/_dispatch/reductions.py: cumsum", "python/lacuna/array_api/linalg/__init__.py"]}
{"id": "C99", "title": "Sums and means over some axes of N-D programs in binary64, correctly rounded means and exact differences of whole numbers", "statement": "For every program of C96 whose value is a COOND, reduce_sum_axes and reduce_mean_axes over any valid axes have one outcome in every execution environment: a COOND over the remaining axes that stores no coordinate twice. Each of its elements (zero where nothing is stored) is the exact sum, or mean, of the elements of the program along the axes up to one rounding for each addition (and, for the mean, one for the reciprocal of the count and one for the product, and half the smallest positive number), and NaN if one of these elements is; what is not stored in the operand counts as zero. For the programs of C98 over whole numbers: the mean over axes with 2^k cells is exact; mean of a matrix over any axis, and of an N-D array over all, is the exact mean correctly rounded to binary64, for every schedule; and diff of order n is exact if the numbers are at most 2^53 / 2^n.", "quantifier": "for all programs nested to any depth and crossing between the classes, all numbers in them (NaN and infinities included), all shapes, axes and orders of differences, all schedules and execution environments", "why_tests_cant": "a test with a tolerance cannot see that an entry was dropped or counted twice if it is small, and sees one order of the entries; that a mean is the correctly rounded one for all inputs is out of reach of samples", "anchors": ["crates/lacuna-kernels/src/statistical/sum.rs: reduce_sum_axes_coond_f64_i64", "crates/lacuna-kernels/src/statistical/mean.rs: reduce_mean_axes_coond_f64_i64", "python/lacuna/sparse/coond.py", "python/lacuna/array_api/_dispatch/reductions.py: mean", "python/lacuna/array_api/_dispatch/reductions.py: diff"]}
{"id": "C100", "title": "The functions sum and mean over some axes of N-D programs in binary64; a mean over an axis need not be correctly rounded", "statement": "For every program of C96 whose value is a COOND, sum(x, axis, keepdims) and mean(x, axis, keepdims) over any valid axes, negative or repeated ones included, that leave at least one have one outcome in every execution environment: a COOND of the shape NumPy returns that stores no coordinate twice. Each of its elements is the exact sum, or mean, of the elements of the program along these axes up to the error bounds of C99, and NaN if one of these elements is. For the programs of C98 over whole numbers each sum is exact, and each mean is the exact sum times the rounded reciprocal of the count, rounded. So it is rounded twice: mean(x, axis=1) of a row of 49 ones is 1 - 2^-53, while mean(x) of the same array is 1.", "quantifier": "for all programs nested to any depth and crossing between the classes, all numbers in them (NaN and infinities included), all shapes, axis arguments and values of keepdims, all execution environments; the counterexample in every execution environment", "why_tests_cant": "a test with a tolerance cannot see an error in the last place, nor an element dropped or counted twice if it is small; samples cover few axis arguments and one order of the entries", "anchors": ["python/lacuna/array_api/_dispatch/reductions.py: sum", "python/lacuna/array_api/_dispatch/reductions.py: mean", "python/lacuna/array_api/_dispatch/reductions.py: _coond_with_keepdims", "crates/lacuna-kernels/src/statistical/sum.rs: reduce_sum_axes_coond_f64_i64", "crates/lacuna-kernels/src/statistical/mean.rs: reduce_mean_axes_coond_f64_i64"]}
{"id": "C101", "title": "Programs whose calls meet changing environments: thread counts and hash orders may differ from call to call", "statement": "Let every call of a program over the four classes meet an execution environment of its own: another number of threads, another order of the hash maps of the broadcasting product, another order of equal keys in the unstable sorts. Then the program still returns an object of the computed class and shape with valid arrays, or raises the computed exception; there is no undefined behaviour and no hang; in exact arithmetic the cells are those of the dense array that the program denotes. A program that unfolds no COOND with a coordinate stored twice has one outcome, bit by bit the one it has in any single environment, in any arithmetic. For other programs this fails: with a coordinate stored three times, x.mode_unfold_to_csr(0) - x.mode_unfold_to_csr(0) is empty on each of two machines but not if the two calls meet different ones.", "quantifier": "for all programs nested to any depth and crossing between the classes, all sets of environments and all choices of an environment for every call, all arithmetics; cells in every ordered field", "why_tests_cant": "hash seeds are drawn at run time and thread counts depend on the machine, so a test run sees one choice of them; agreement of repeated runs is no evidence for other choices", "anchors": ["crates/lacuna-kernels/src/elementwise/multiply.rs: hadamard_broadcast_coond_f64_i64", "python/lacuna/_runtime.py: set_num_threads", "python/lacuna/array_api/_dispatch/elementwise.py: multiply", "python/lacuna/sparse/coond.py: mode_unfold_to_csr"]}
{"id": "C102", "title": "Several Python threads: calls are unaffected by what other threads do, except that tensordot and vecdot race with writes to their dense operand", "statement": "The bindings release the GIL while a kernel runs. Let any number of Python threads create arrays, write to arrays of values, construct objects, and call functions on objects and products with dense arrays, interleaved in any way. Then every object stays valid; every running call finishes, none hangs; a call with sparse operands finishes as if it had been executed alone when it was started, evaluating the program with the contents that its operands had then, and a product with a dense operand is the contraction of the contents at its start. The only undefined behaviour is a write to a NumPy array that is the dense operand of a running tensordot or vecdot call which does not go through @: these bindings hand the array to the kernel without copying it. Such a write always is undefined behaviour, with valid objects and two threads; with x @ y in place of tensordot it is harmless. Programs of one thread are the sessions of C81.", "quantifier": "for all numbers of threads, all interleavings of any length, all objects, arrays and calls of all four classes, all environments changing with every action; arithmetic with a commutative product, values in every field", "why_tests_cant": "which thread runs between the start and the end of a kernel is up to the scheduler; a test has to hit a window of microseconds, and a race that it hits may show no effect", "anchors": ["crates/lacuna-py/src/array_api/linalg.rs: tensordot_csr_dense_axes1x0_from_parts", "crates/lacuna-py/src/array_api/linalg.rs: vecdot_csr_axis0_from_parts", "crates/lacuna-py/src/types/csr.rs: spmv", "python/lacuna/array_api/linalg/__init__.py: tensordot", "python/lacuna/array_api/linalg/__init__.py: vecdot"]}
{"id": "C103", "title": "Sessions in which attributes of objects are rebound", "statement": "shape, indptr, indices, row, col and data are plain attributes: x.data = a replaces the reference, nothing is validated, and the native copy made by the constructor stays. Let a session (C81) contain such assignments as well. Arrays of indices may also be written to. If every assignment leaves the present arrays of the object valid for its shape (only COOND objects get another shape), and every write to an array of indices leaves all objects valid, then in every state both contents of every object (at construction, and of the present arrays) are valid; every statement has exactly one outcome, a new state or an exception, never undefined behaviour; a statement that makes an object evaluates the program on the contents at construction or the present contents of its operands, as in C81, and every question is answered from one of the two. After any assignment the attribute holds the new value, and all other attributes of all objects are as before. x.data = a changes the present values of x only, leaves the native copy and every other object as they are, and ends the sharing: writes to the old array no longer reach x, writes to a do. After the replacement of any array of a CSR, CSC or COO object, sum, mean and the products that go through @ answer as before, all other questions as for an object constructed with the new arrays. A write to an array of indices changes only the objects that hold it, neither their shapes nor their values, and no contents at construction. Functions that use the native copy do not notice the replacement of any arrays, whatever is in them. An array of values of another length makes remainder(x, y) and pow(x, y) raise ValueError. After x.shape = (r, c), with arbitrary integers, on a CSR, CSC or COO object, x @ y is as before if c is the number of columns at construction, and otherwise raises for every y: PanicException for vectors of length c, ValueError for everything else. But tensordot passes the attributes on unchecked: if a smaller shape is assigned to an object with a stored value in a column (CSR, COO) or a row (CSC, COO) that is cut off, tensordot with a matrix that fits the new shape reads behind the end of that matrix or writes behind the end of the result. An array of pointers with the right length, first and last element is noticed nowhere: remainder(x, x) and pow(x, x) then read outside the arrays.", "quantifier": "for all sessions of any length, all objects of the four classes, all attributes and arrays, all functions, operators and questions, all environments (changing with every statement), any arithmetic", "why_tests_cant": "the effect of an assignment depends on which objects shared the array, on the class, and on the function called later; a test fixes all of these, and reads outside an array need not fail", "anchors": ["python/lacuna/sparse/base.py: SparseArray.__init__", "python/lacuna/sparse/csr.py: CSR.__init__", "python/lacuna/sparse/csc.py: CSC.__init__", "python/lacuna/sparse/coo.py: COO.__init__", "python/lacuna/sparse/coond.py: COOND.__init__"]}
{"id": "C104", "title": "Several Python threads that assign to attributes and write to arrays of indices while calls run", "statement": "Let the threads of C102 also assign to the attributes of objects (x.data = a, x.indices = b, y.shape = s, ...) and write to arrays of indices, interleaved in any way with calls that run without the GIL, where every assignment and every such write leaves the objects valid (C103). Then in every state both contents of every object are valid; everything has an outcome, and nothing hangs; the only undefined behaviour still is a write to the array of values that is the dense operand of a running tensordot or vecdot call: assignments and writes to indices race with nothing, end no call and start none. A call with sparse operands finishes as if it had been executed alone when it was started, with the arrays that its operands had then, whatever is assigned meanwhile, and a product with a dense operand is the contraction of the contents at its start. Every running call can finish, whatever else is running; then it alone ends, and what existed before is unchanged, so that there is no deadlock. The sessions of C103 are the case of one thread, and the interleavings of C102 those without assignments.", "quantifier": "for all numbers of threads, all interleavings of any length, all objects, attributes, arrays and calls of all four classes, all environments changing with every action; arithmetic with a commutative product, values in every field", "why_tests_cant": "the outcome depends on when other threads assign; a test sees the few interleavings that the scheduler happens to produce", "anchors": ["crates/lacuna-py/src/types/csr.rs: spmv", "crates/lacuna-py/src/array_api/linalg.rs: tensordot_csr_dense_axes1x0_from_parts", "python/lacuna/array_api/linalg/__init__.py: tensordot", "python/lacuna/sparse/base.py: SparseArray.__init__", "python/lacuna/sparse/csr.py: CSR.__init__"]}
