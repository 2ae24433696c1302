# Formal model of Lacuna's sparse kernels - design

Lacuna is a sparse-array library: Rust kernels (`crates/`) behind a Python layer
(`python/lacuna`).  Storage formats: CSR, CSC (compressed rows/columns), COO
(triples) and N-D COO.  This directory contains a Lean 4 model of that code,
written from the text of `/repo`, and proofs of the properties in
`properties.jsonl`.

## Layout

| directory | content |
|----|----|
| `lean/Verif/Model/` | the code, function by function; every definition cites file and lines |
| `lean/Verif/Spec/` | small vocabulary for the statements: dense meaning of a matrix, well-formedness, list-level definitions of sum/mean/variance/..., NumPy indices, schedules |
| `lean/Verif/Lemmas/` | auxiliary lemmas |
| `lean/Verif/Props/` | the property theorems, each with a concrete `example` next to it |
| `MANIFEST.json` | property -> theorem names |
| `AXIOMS.md` | output of `#print axioms` for every theorem in the manifest |
| `seeded/LOG.jsonl` | seeded faults: definition edited, edit, theorems that failed |

## Trusted base

* The Lean 4 kernel.
* Lean's axioms `propext`, `Classical.choice`, `Quot.sound`.  `AXIOMS.md` lists
  which of them each claimed theorem uses.  No axioms of our own, no `sorry`, no
  `native_decide`, no `bv_decide`.
* Mathlib definitions that occur in statements (algebraic classes, `List.sum`,
  `List.Perm`, `List.Pairwise`, `List.Forall2`).
* The definitions in `Spec/`.
* The transcription of the source into `Model/` under the conventions below.

## Modelling conventions and simplifications

* **Integers.** `i64` is `Int`, `usize` is `Nat`.  Checked arithmetic is
  `Option`.  Where a wrap could matter it is modelled (hash function, N-D keys,
  reshape and unfolding indices, the length check of `spmm`) or excluded by an
  explicit hypothesis (`Fits`, `I64`, `NoOverflow`, `<= usizeMax`).  The
  hypotheses `I64`, `Fits` are automatic for values that really are `i64`.
* **Values.** `f64` is an arbitrary type `V` with notation classes only, plus own
  law-free classes for `is_finite`, `floor`, `powf`, `<`, `abs`, NaN, `mul_add`,
  `min`/`max`, `sqrt`.  Theorems that assume no laws hold for IEEE numbers.
  Theorems about exact results assume the weakest algebra they need, i.e. *ideal
  arithmetic*.  Sums and products are also treated in *rounded arithmetic*: `FpAdd`,
  `FpMul`, `FpFma` (`Spec/Rounding`) state relative error and underflow bounds, and
  `B64` (`Model/Binary64`) is IEEE binary64 with rounding to nearest even, gradual
  underflow and overflow, proved to satisfy them.  Simplified: infinities and NaNs
  are one absorbing element, the zeros are identified.  `F64` (`Model/F64`) has all
  values of binary64 except that there is one NaN, and all operations that Rust
  defines by IEEE 754 including `mul_add` and `sqrt`; `f64_nearest` proves them
  correctly rounded, and `tests/f64_cases.py` compared them with a machine on 400
  random operands (no difference; a test of the definition, not a proof).  `==` is `BEq` and not assumed lawful
  unless stated, so NaN can be represented.
* **Slices.** A loop over `p in start..end` is recursion over the entries of
  that slice; a two-pointer merge is recursion over the two remaining suffixes.
  For the kernels in `Model/Ptr*.lean` this step is itself proved: the pointer
  level program, with every raw access checked, refines the list level model.
* **Pointer level** (`Model/Ptr*`).  A raw access outside its allocation is
  `Fault.ub`, a failed check is `Fault.panic`, an exhausted loop bound is
  `Fault.fuel`.  Two parallel iterations storing to one position are a data race,
  also `ub`.  Casts and sums wrap in release builds and panic in debug builds; the
  theorems cover both.  If several iterations fault, the outcome is the fault of any
  of them.  An iteration that faults next to a racing pair is reported by its own
  fault.  `Spec/Ptr`, `Spec/PtrIdx` state what the kernels need (`PtrOk`, `IdxOk`)
  and what Rust guarantees for every vector (`Machine`).  Simplified: operands of
  nested `mul_add` calls are read in entry order.
* **Atomic counters** (`Model/Conc`).  The iterations of a parallel loop are tasks; a run
  executes single `fetch_add`s and stores in any interleaving.  `fetch_add` on one counter
  is atomic and wraps; the stores of a run are applied in any order, and two tasks
  storing to one position are a data race.
* **Python objects** (`Model/PyClass`).  The native core is present; arrays are
  contiguous (other layouts and dtypes: `Model/PyLayout`) and, except in `Model/PySession`, not modified after construction; both
  operands are of one class.
  A result too large for memory is a panic when it is wrapped instead of when it is
  allocated.
* **Raw-pointer parallel fill.** The list of the single writes; a schedule is any
  permutation of it.
* **Atomic slot claims** (`fetch_add`): any interleaving of the per-thread claim
  sequences.
* **Thread-local accumulators**: any division of the work among threads and any
  merge order.  The parallel merge over stripes is any permutation of additions.
* **Rayon `reduce`**: any binary tree over the chunk results, with identities
  inserted anywhere.
* **`sort_unstable_by`**: every function returning a sorted permutation.
* **SIMD.** Lanes are evaluated one after another; a 4-lane map with scalar tail
  is written as in the source and proved equal to the plain map.
* **Panics** and Python exceptions are explicit (`Option`, `Except PyErr`).
* **Hash map capacity** is a `Nat` power of two; probing carries fuel, and running
  out of fuel is proved impossible.
* **CSR/CSC.** The Rust bodies are the same up to exchanging rows and columns; both
  are interpreted through a common view `Comp`.
* **min and max** share one model parameterised by the comparison.
* **Python layer.** NumPy primitives (`searchsorted`, slicing, `reshape`,
  `bincount`, `diff`, `transpose`) are modelled by their documentation.  Compiled
  kernels appear as parameters of the dispatch functions and are instantiated with
  the kernel models in the theorems.

Not modelled: payloads and signs of NaNs, the accuracy of `powf`, performance,
allocation failure, PyO3 object
handling, threads inside NumPy (Python threads and the GIL are, in C102), the values that dtype conversions give, the rayon runtime beyond the
schedules above, assignments to `_handle`, `ndim` and `dtype`.

## What is modelled

| source | model |
|----|----|
| lacuna-core `csr.rs`, `csc.rs`, `coo.rs` (constructors and checks) | `Model/Core` |
| kernels `elementwise/{add,subtract,multiply,divide,floor_divide,remainder,power}.rs`, CSR/CSC | `Model/TwoPass`, `Model/Elementwise` |
| the same at pointer level (raw reads and writes, `as usize`) | `Model/Ptr*` |
| conversions of `astype.rs` at pointer level, with atomic counters | `Model/Conc`, `Model/PtrConvert` |
| array API `matmul`, `tensordot`, `vecdot` on `CSR`, `CSC`, `COO`, `COOND` objects with their bindings | `Model/PyLinalg`, as the last step of programs `Model/PyLinProg` |
| the same functions and the constructors on arrays with arbitrary strides and dtypes (`np.asarray`, `reshape(-1)`, `PyReadonlyArray`, `as_slice`) | `Model/PyLayout` |
| Python programs over `CSR`, `CSC`, `COO`, `COOND`: element-wise functions with dispatch, `T`, `prune`, `reshape`, `permute_dims`, axis reductions, unfoldings, down to the pointer-level kernels | `Model/PyProg` |
| Python classes `CSR`, `CSC`: constructors, binary operators, scalar `*`, `abs`, CSR `@` vector | `Model/PyClass` |
| kernels `elementwise/{abs,sign}.rs`, scalar variants of the above | `Model/Scalar` |
| N-D element-wise, broadcast multiply | `Model/Nd`, `Model/Broadcast`; add, sub, hadamard at pointer level `Model/PtrNdAcc`, broadcast multiply `Model/PtrBroadcast` |
| `utility/{prune,eliminate_zeros}.rs` | `Model/Prune`; CSR/CSC at pointer level `Model/PtrPrune` |
| `utility/util.rs` (hash map, strides, stripes) | `Model/HashMap`, `Model/Nd`, `Model/Accum` |
| `data_type_functions/astype.rs` | `Model/Convert`, `Model/Unfold`; at pointer level `Model/PtrConvert`, `Model/PtrNd` |
| `linalg/matrix_transpose.rs` | `Model/Transpose`; at pointer level `Model/PtrTranspose` |
| `linalg/{matmul,vecdot,tensordot}.rs` | `Model/Spmv`, `Model/Spmm`; at pointer level `Model/PtrSpmv`, `Model/PtrAccum`, `Model/PtrSpmm`, N-D `Model/PtrNdAcc` |
| `manipulation/{permute_dims,reshape}.rs` | `Model/Nd`; reshape at pointer level `Model/PtrNd` |
| `manipulation/diff.rs` | `Model/Diff`; CSR/CSC at pointer level `Model/PtrDiff` |
| `statistical/{sum,mean,minmax,prod,varstd,logic,cumulative}.rs` | `Model/Sums`, `Model/Reduce`, `Model/Stats`, `Model/Cumulative`, `Model/PtrCumulative`, `Model/NdMean`; sums at pointer level `Model/PtrSimd`, `Model/PtrSpmv`, `Model/PtrAccum`; per-line reductions `Model/PtrLines` |
| lacuna-py `array_api/creation.rs`, python `creation/__init__.py` | `Model/Create` |
| python `sparse/{csr,csc,coo}.py` indexing, `toarray`; comparisons of `_dispatch/elementwise.py` | `Model/PyIndex`, on programs and with broadcasting `Model/PyRead` |
| the same programs with an environment (threads, hash orders, orders of equal keys) for every call | `Model/PyVar` |
| Python threads: `py.detach`, `to_vec`, `as_slice` in `crates/lacuna-py/src/types/*.rs` and `array_api/*.rs` | `Model/PyGil`: calls start and finish as separate actions; which operands are copied and which are read in place |
| python `sparse/{csr,csc,coo,coond}.py` constructors: which arrays objects share and which calls use the native copy | `Model/PySession` |
| python `sparse/{base,csr,csc,coo,coond}.py`: the attributes of objects, assigned to after construction | `Model/PyRebind` |
| the same attributes, assigned to by some Python threads while others run calls | `Model/PyGilRebind` (on `Model/PyGil` and `Model/PyRebind`); the attributes of one operand are read at one moment |
| python `sparse/{csr,csc,coo,coond}.py` special methods and named methods of the operators | `Model/PyOper` |
| python `array_api/__init__.py`, `_namespace.py` and the forwarding functions of all its packages | `Model/PyNamespace` |
| lacuna-py `array_api/{dtypes,devices}.rs`, python `_runtime.py`, `astype` | `Model/PyMisc` |
| python `array_api/linalg/__init__.py: matmul` | `Model/Matmul` |
| python `_dispatch/{reductions,searching}.py` | `Model/PyReduce`; reductions on objects `Model/PyStat`; `cumsum`, `cumprod`, `diff`, `count_nonzero` on objects `Model/PyScan` |

Not modelled: argument parsing in lacuna-py, `lacuna-io` (empty), what NumPy does
with dense inputs.

## Properties

| id | statement in one line | method |
|----|----|----|
| C01-C04 | checked constructors accept exactly the well-formed arrays | iff with a declarative predicate |
| C05-C07 | add, subtract, multiply = dense | induction on merges, schedule independence |
| C08, C09 | count pass = fill pass; parallel fill is deterministic | law-free list equalities, permutations of disjoint writes |
| C10-C12 | divide, floor divide, remainder, power on the common pattern | as C05 |
| C13, C14, C47 | scalar operations | list equalities incl. SIMD split |
| C15 | canonical form | uniqueness of strictly sorted association lists |
| C16, C17 | prune, eliminate zeros | filter equality |
| C18 | hash map refines a finite map | invariant and abstraction function |
| C19-C24, C29, C48 | N-D kernels | row-major bijection and C18 |
| C25-C27 | conversions | multiset of entries preserved under every schedule |
| C28, C46 | transpose | both strategies equal the canonical transpose |
| C30-C33, C44 | products with vectors, matrices, batches; tensordot, vecdot | sums over lists, every schedule |
| C34-C39 | sum, min/max, prod, var/std, all/any | sums over dense cells incl. implicit zeros, every reduction tree |
| C40, C41 | cumulative sums/products, differences | induction on rows / order |
| C42, C43, C49 | creation, indexing, comparisons | arithmetic, sorted search |
| C45 | range splitter | induction |
| C50-C54 | reduction front end of the Python layer | axis normalisation, fibres of the reduced index |
| C55 | unsafe element-wise kernels: in bounds, race free, terminating | pointer program refines the list model |
| C56 | unrolled dot products (spmv, vecdot): the same | loop invariant per block size |
| C57 | SIMD slice loops: in bounds for every slice; row sums: no undefined behaviour on corrupt input | loop invariants, disjoint ranges |
| C58 | programs over the Python classes CSR/CSC: what validation at construction protects | induction over expressions with the invariant `Held` |
| C59 | format conversions with atomic position claims: in bounds, race free, exactly the list-level results | small-step runs of tasks on shared counters, counter invariant, both directions |
| C60 | transpose, both strategies: in bounds, race free, exactly the list-level results | loop invariants, counter invariant, disjoint segments |
| C61 | pruning: in bounds, race free, exactly the list-level result; arbitrary pointers only panic | loop invariants, disjoint segments, case analysis of the checked slices |
| C62 | N-D reshape and unfolding: in bounds for arbitrary index values, also from Python | per-entry case analysis, disjoint blocks of the parallel stores |
| C63 | cumulative sums and products: in bounds when the dense result fits, out of bounds when its size wraps | loop = fold including faults, sorted-row splitting |
| C64 | differences: counting and filling passes agree, all accesses in bounds, both layouts and axes | row routine = list-level routine or panic, two-pass assembly |
| C65 | sums, products and `vecdot` through thread-local accumulators: in bounds; the hash map drains unchecked | accumulator invariants, operations of a group folded into its cell, probing terminates |
| C66 | sparse times dense matrix products: in bounds and race free; invalid indices and a wrapped result size are not | loop invariants of the tiles, events of different tiles hit different columns |
| C67 | N-D add/sub/hadamard/axis sum/spmv: no undefined behaviour on any arrays; exact on valid ones | shape invariant of the hash table, refinement to the list level |
| C68 | N-D spmm/tensordot: in bounds for coordinates in range; stray coordinate and wrapped length are not | loops as folds, refinement to the list level |
| C69 | Broadcasting product: in bounds for all arrays unless a buffer size wraps; refines the list level | normalised buffers as blocks, chunked hash maps, refinement |
| C70 | Sums in binary64: every execution adds each stored value once; error bound; exact for small integers | naturality of the accumulators in the arithmetic, traced values, addition trees |
| C71 | Products in binary64: error bound for every execution; exact for small integers | as C70, fused multiply-add induction |
| C72 | `matmul`, `tensordot`, `vecdot` on Python objects: values, exceptions, no UB after validation; UB without | composition of the pointer-level theorems with the class model |
| C73 | programs over the four Python classes: class, shape, exception, invariants of the result, no UB | induction over programs; big-step outcomes against a type checker on shapes |
| C74 | the same programs in exact arithmetic: every cell of the result is the one of the dense program | induction over programs against a denotational semantics (`Prog.cells`) |
| C75 | per-line products, minima, variances, `all`, `any` at pointer level; UB across the lines for stray indices | exact outcome sets, composition with C60's transposition |
| C76 | `sum` … `any` of objects of the four classes and at the end of programs: dense reductions over the given axes; rejected axes; COOND reductions that never succeed | outcome sets of the dispatch, composition with C54, C72–C75 |
| C77 | `cumsum`, `cumprod`, `diff`, `count_nonzero` of objects and at the end of programs: partial sums, differences, counts; rejected arguments; wrong CSC results and sizes that wrap | outcome sets of the dispatch over C40, C45, C53, C63, C64; `eliminate_zeros` leaves no stored zero |
| C78 | `matmul`, `tensordot`, `vecdot` of objects of the four classes and at the end of programs: the contraction of the documented axes or the exception of a table; no UB in any arithmetic | one contraction relation over C72; tables shown complete (`linFn_error_none`) |
| C79 | the same programs in any arithmetic: the stored entries bit by bit (`Prog.stores`), hence reproducible on every machine; laws such as `(A op B).T` = `A.T op B.T` | induction over programs on lists of stored entries, no algebraic law |
| C80 | reading the results of programs: `toarray`, `nnz`, subscripts, comparisons with broadcasting, one outcome each, in any arithmetic and in exact arithmetic | reduction to the stored entries of C79; NumPy strides against row-major positions |
| C81 | sessions with variables, shared arrays and in-place writes: one outcome per statement, which contents each function uses, what a write changes; stale native copies and index writes as negative results | invariant over reachable states; reduction of every call to a program of C73 on constructor calls |
| C82 | reductions of objects and programs in any arithmetic: always an outcome, the shape, and each cell built from the stored numbers used once; error bound, NaN propagation | trees of additions and choices; runs of the kernels classified line by line; permutation between lines, cells and stored entries |
| C83 | operator syntax between sparse objects, numbers and strings, and every expression of operators and calls | case analysis of the special methods; induction over expressions, each operator reduced to a call |
| C84 | every public name of the namespace: where sparse and dense arguments end up | the guard for all arguments; finite tables of names and signatures |
| C85 | data type promotion, devices, `astype`, number of threads | least upper bounds; invariants over histories |
| C86 | `matmul`, `tensordot`, `vecdot` of objects and programs in any arithmetic with a commutative product: always an outcome, the shape, each element from the stored numbers of its line; fixed bits, error bound, exactness, NaN | existence of a run for every fuel; lines of the three formats as one list of stored entries; reshaping lemmas |
| C87 | `cumsum`, `cumprod`, `diff` of objects and programs in any arithmetic: always an outcome, each element accumulated from the cells up to it; fixed bits, error bound, NaN, `diff` as repeated differences without zeros, dense up to signed zeros | lines of the three formats as functions from cells to optional sums; induction over the order of the difference with a relation between sparse and dense cells |
| C88 | in IEEE binary64 with signed zeros, infinities and NaN: programs compute NumPy's dense elements up to the sign of zeros (`toarray`, `cumsum`, `diff`; `Prog.AsNumpy`, and `Prog.AsDense` with the kernels' own quotients), sums, means and products with dense arrays within the error bound over the dense elements, variances never negative | the laws assumed by C82, C86, C87 are proved for `F64`; congruence of the operations for "equal up to the sign of zero"; induction over programs relating the number stored at a cell to the dense element |
| C89 | whole numbers up to 2^53: programs without true division (floor division, remainder and `prune` included), sums, products, prefix sums, differences and products with dense arrays are exact, whatever the order of the additions | every partial result of an evaluation tree is a whole number bounded by the sum (product) of the absolute values, hence representable and not rounded |
| C90 | `x / alpha`, `floor_divide`, `remainder` by a number in binary64: error bound of the division through the reciprocal, floor or the whole number above it, exact for whole numbers; six families of disagreements with NumPy | rounding is nearest, so it does not cross a whole number; a quotient of whole numbers keeps a distance of 1/alpha from the next whole number |
| C91 | `var` and `std` in binary64, of programs over all classes: error relative to the sum of squares for every order of additions; cancellation to 0 exhibited | rounding steps composed along `variance_from_sums`, Cauchy-Schwarz for the square of the sum |
| C92 | each floating-point operation on finite numbers is the exact result rounded to nearest, ties to even; the rules fix the result; floor exact, square root nearest, `std` the number closest to the root of its variance; results for infinities and `NaN`, and comparisons as extended reals | rounding to integers in units of the last place; Mathlib's real square root |
| C93 | layout and dtype of dense arguments: every call raises `TypeError` or computes what it computes with a contiguous `float64` copy, and which of the two; constructors on views; Fortran order | views flattened by induction on the axes; refinement of the contiguous model |
| C94 | binary64: `divide`, `floor_divide`, `remainder` of two compressed arrays have the IEEE elements where these are finite and zero everywhere else (no conditions on the operands); quotients are rounded once; floors are off by at most one; whole numbers are exact | one lemma for the three kernels: a zero divisor never gives a finite result, a zero dividend gives a zero or a result that is dropped, so missing entries behave as zeros |
| C95 | binary64: `min`, `max` return the extremum of NumPy's elements, `prod` the product up to one rounding per multiplication, `cumprod` NumPy's running products, `all`, `any` and the comparisons exactly NumPy's; `count_nonzero` counts the stored entries | induction over the tree of joins of C79/C82 with the order of binary64 (`≤` is transitive without NaN) or the factor of the rounding errors as invariant |
| C96 | binary64: programs over all four classes, with broadcasting, `reshape`, `permute_axes` and unfoldings, have the elements of the dense program up to the sign of zeros; reductions, scans, `diff`, logic, counts, products with dense arrays and comparisons of them | stored coordinates stay distinct (invariant), so each element is one stored number or a missing one; induction over programs, then the lemmas of C88 and C95 for every class |
| C97 | N-D `tensordot` and `vecdot`: which products are added in which order in any arithmetic, their rounding error, `NaN`; in binary64 the elements of the dense program up to rounding, exact for whole numbers | refinement of the hash accumulator to folds over the storage order; permutation of the stored line into the dense one, then the rounding lemmas of C86 and C88 |
| C98 | whole numbers up to 2^53 in programs over all four classes, broadcasting, `reshape`, `permute_axes`, unfoldings and inner `reduce_sum_axes` included: exact elements, sums, products, prefix sums, products with dense arrays; inner axis sums and means in C96 | the stored numbers of an axis line are a permutation of its non-missing elements, and whole numbers add without rounding in any order; induction over programs |
| C99 | `reduce_sum_axes` and `reduce_mean_axes` of programs for all numbers: error bounds, `NaN`; whole numbers: exact means over 2^k cells, correctly rounded means, exact differences | what is stored along the axes is a permutation of the non-missing elements (C96), sum trees; the relative error of the reciprocal; representability of dyadic fractions |
| C100 | the functions `sum` and `mean` over some axes of N-D programs: shape with and without `keepdims`, error bounds, `NaN`; whole numbers: exact sums, means rounded twice, with 49 ones as a counterexample to correct rounding | the call is the method of C99 followed by zeros put into the coordinates, which is injective; sum trees of whole numbers; the counterexample by evaluation in the kernel |
| C101 | programs whose calls each meet an environment of their own: soundness, no undefined behaviour, exact cells, one outcome bit by bit for `Determined` programs; a program that shows the difference | induction over programs with an invariant of the returned objects; replacement of operands by literals; the counterexample by evaluation in the kernel |
| C102 | Python threads while kernels run without the GIL: validity, no hang, calls are atomic, the one race (a write to the dense operand of a running `tensordot` or `vecdot`) | invariant of objects and running calls over all interleavings; a call evaluates a program or a product fixed at its start; two-thread traces for the race |
| C103 | sessions in which attributes are rebound: validity, no undefined behaviour, who sees the new array, end of sharing; lengths are noticed, pointers are not; products after the shape was assigned to | the invariant of C81, with a native copy and present arrays that are each valid and of one shape, is kept by assignments and index writes that leave the objects valid; native copies are untouched |
| C104 | Python threads that also assign to attributes and write to arrays of indices: validity, no hang, calls are atomic, no new race; C102 and C103 are special cases | the invariant of C102 holds of objects and running calls; assignments keep it as in C103, and running calls hold the contents of their start |

## Coverage of `unsafe`

Every `unsafe` block of the workspace is in `lacuna-kernels`; each function that contains one has a
pointer-level model and a theorem saying when its accesses are in bounds and free of races.

| function | in bounds | outside the hypotheses |
|----|----|----|
| `{add,sub,hadamard,div,floordiv,rem,pow}_{csr,csc}` | C55 `*_csr_ptr`, `*_csc_ptr` | `add_csr_unchecked_ub` |
| `spmv_f64_i64`, `spmv_row`, `vecdot_csc_dense_axis0` | C56 | `spmv_csr_unchecked_ub` |
| `abs_scalar_*`, `mul_scalar_*`, `sum_*`, `chunk_{min,max,prod,sum_sum2}`, `count_significant`, `row_sums_f64`, `col_sums_csc_f64` | C57, for all slices | - |
| `csr_to_csc`, `csc_to_csr`, `csr_to_coo`, `csc_to_coo` | C59 | `csr_to_csc_overlap_ub`, `csc_to_csr_overlap_ub`, `csr_to_coo_ub` |
| `transpose_f64_i64`, `transpose_csc` | C60 | `transpose_csr_outside_ub`, `transpose_csc_outside_ub` |
| `prune_eps`, `prune_eps_csc` | C61 | `prune_csr_surplus_ub`, `prunePtr_short_ub` |
| `reshape_coond`, `coond_axes_to_coo` | C62, for all arrays | `reshape_size_wraps`, `unfold_short_ub` |
| `cumsum_csr_axis*`, `cumprod_csr_axis*` | C63 | `cumsum_size_wraps`, `cumprod_size_wraps`, `cumsum_outside_ub` |
| `diff_csr_axis1` | C64 | `diff_past_end_ub` |
| `UsizeF64Map::{insert_add,drain_to}`, `col_sums_f64`, `row_sums_csc`, `col_sums_coo` and the other users of the map | C65, C67 | `col_sums_ub` and its copies |
| `spmm_f64_i64`, `spmm_csc`, `spmm_coo` | C66 | `spmm_csr_ub`, `spmm_csc_ub`, `spmm_coo_ub`, `spmm_*_size_wraps` |
| `spmm_coond` | C68 | `spmm_nd_ub`, `spmm_nd_size_wraps` |
| `hadamard_broadcast_coond` | C69, for all arrays | `broadcast_size_wraps`, `py_broadcast_wraps` |

## Disagreements between the code and the property one would expect

Each is a theorem.  The positive theorem of the property carries the hypothesis
that excludes it.

Memory and data loss:

* `csr_to_csc_unsorted`, `csr_to_csc_then_multiply_wrong` - for some schedules
  CSR->CSC returns unsorted columns, and element-wise kernels applied to them lose
  entries.  `cumulative_csc_axis1_wrong` - the same race makes row-wise
  cumulative sums of CSC matrices wrong.
* `add_csr_unchecked_ub` - row pointers accepted with `check=False` make addition
  read outside its buffers.  `spmv_csr_unchecked_ub` - the same for a column index
  outside the vector, in debug and release builds.
* `csc_checked_ub`, `csc_abs_ub` - `CSC.__init__` swallows the validation error, so
  also with `check=True` element-wise operators on an invalid `CSC` read outside
  the arrays; `abs` turns it into an object that every operator accepts.
* `csr_to_csc_overlap_ub`, `csc_to_csr_overlap_ub` - line pointers that decrease
  (accepted with `check=False`) make the conversion claim more positions than there
  are and write behind the end.  `csr_to_coo_ub` - a row that starts behind the end
  is written before any check; `csc_to_coo_past_end` - the CSC twin panics instead.
* `transpose_csr_outside_ub`, `transpose_csc_outside_ub` - a stored index outside the
  matrix (accepted with `check=False`) makes the tiled transpose write outside its
  histogram, in every run; `transpose_csr_outside_panics` - the atomic strategy panics.
* `prunePtr_surplus`, `prune_csr_surplus_ub` - more pointers than rows plus one make the
  parallel pruning path access memory behind its buffers (the sequential path panics);
  `prunePtr_short_ub` - so does a kept value without an index.
* `reshape_size_wraps`, `py_reshape_wraps` - the size `nnz * new rank` of the buffer is not
  checked: in a release build it wraps and the stores go outside the buffer.
* `cumsum_size_wraps`, `cumprod_size_wraps` - the size `nrows * ncols` of the dense
  result is not checked: for a valid CSR of 5 rows and (2^64+4)/5 columns every
  release run of `cumsum(axis=1)` writes behind its 4-element buffer.
* `col_sums_ub`, `row_sums_csc_ub`, `row_sums_coo_ub`, `col_sums_coo_ub`, `spmv_csc_ub`,
  `spmv_coo_ub`, `vecdot_coo_ub` - the hash map of the sums and products takes any index
  and writes to it unchecked: with `check=False` one stored index past the end is an
  out-of-bounds write, where the other accumulators panic.
* `spmm_csc_size_wraps`, `spmm_coo_size_wraps` - the size `nrows * k` of the product is not
  checked: a valid 2^40 x 1 matrix with one entry times a 1 x 2^24 dense matrix makes the
  release build write outside an empty result.
* `spmm_csr_ub`, `spmm_csc_ub`, `spmm_coo_ub` - with `check=False` a stored index past the
  dimension reads the dense factor or writes the result outside.
* `spmm_nd_ub`, `spmm_nd_size_wraps` - the N-D product reads the dense factor unchecked: a
  stored coordinate past the extent (`check=False`), or a length product that wraps (direct
  calls of the kernel), reads outside it.
* `broadcast_size_wraps`, `py_broadcast_wraps` - the broadcasting product allocates `nnz * ndim` indices per
  operand, multiplied unchecked with the common number of axes: valid arrays accepted with `check=True` whose
  product exceeds `usize` make every release run write outside the buffer.
* `sum_not_reproducible` - in binary64 the same array has runs of `sum` with different
  results, depending on how rayon splits the chunks.
* `vecdot_special_disagree` - contracting the rows of `[[inf]]` with weight 0 gives 0
  for CSR (rows of weight zero are skipped) and NaN for CSC.
* `py_tensordot_coo_ub`, `py_tensordot_csc_ub`, `py_vecdot_coo_ub` - the constructors of
  `CSC` and `COO` with the default `check=True` accept arrays that fail the validation (the
  object has no native copy; `@` raises `RuntimeError`), but `tensordot` and `vecdot` pass the
  arrays on with `check=False`: reads and writes outside the dense arrays.
* `py_tensordot_nd_ub` - `COOND(...)` never validates coordinates, whatever `check` says;
  `tensordot` then reads outside the dense operand.
* `py_tensordot_ignores_axes` - `axes=([1, 0], [0, 1])` gives the result of `axes=1`.
* `py_tensordot_nd_rank` - for `COOND` the remaining axes of the dense operand are flattened
  into one, so the result has the wrong number of axes unless the operand is two-dimensional.
* `py_tensordot_nd_negative` - negative axes, which NumPy accepts, never give a result.
* `py_vecdot_nd_one_axis` - `vecdot` of a one-dimensional `COOND` panics.
* `py_tensordot_empty` - an empty right operand: `CSR` panics, `CSC` and `COO` return the empty array.
* `coond_default_ub` - `COOND` never validates coordinates: `COOND((2,3),[0,5],[v])` unfolded to
  CSR and transposed is undefined behaviour with the default `check=True`.
* `documented_broadcast_panics` - the `hadamard_broadcast` example of the class documentation
  multiplies shapes (2,3,4) and (3,2,4) and panics.  `mode_unfold_shape` - the documentation of
  `mode_unfold_to_csc` promises the transpose of the shape it returns.
* `abs_duplicates` - `abs(COO(...))` with the entries `x` and `-x` in one cell: the array is zero,
  its absolute value has a cell that is not (same for `sign`, `//`, `%`, `**` and `prune`).
* `sparse_pow_storage` - `A ** B` is 1 where `B` stores a zero and 0 where `B` stores nothing.
* `col_reductions_outside_ub`, `row_reductions_outside_ub`, `row_logic_overlap_ub` - `prod`, `min`,
  `max`, `var`, `std`, `all`, `any` of a CSR matrix over axis 0 (of a CSC matrix over axis 1) go
  through a transposition or conversion that stores through unchecked indices: an object built
  with `check=False` and one index outside the shape has undefined behaviour.
* `py_nd_unsupported` - `prod`, `var`, `std`, `all` and `any` of a `COOND` raise `TypeError` with
  `axis=None` (reductions.py passes `x.shape`, a tuple, where the binding takes an array of `i64`)
  and `NotImplementedError` otherwise; `min` and `max` always raise `NotImplementedError`. That the
  conversion of a tuple fails is an assumption about rust-numpy.
* `py_nd_all_axes` - `sum(x, axis=(0, …, n-1))` of a `COOND` panics; NumPy sums everything.
* `py_mean_no_cells` - `mean` of a matrix without cells raises `ZeroDivisionError`; NumPy: `nan`.
* `py_scan_csc_wrong` - `cumsum(x, axis=1)` of the valid CSC matrix `[5, 7]` can return `[12, 12]`, and
  `cumprod(x, axis=1)` `[0, 0]`.
* `py_scan_size_wraps` - a valid CSR matrix with five entries and more than 2⁶⁴ cells: `cumsum(x, axis=1)` and
  `cumprod(x, axis=1)` are undefined behaviour in a release build and panic in a debug build.
* `py_diff_csc_unsorted` - `diff` of a valid CSC matrix can return one with unsorted row indices.
* `py_count_wrong` - `count_nonzero` counts stored zeros, and entries stored twice twice.
* `unfold_duplicates_machine` - `mode_unfold_to_csr` of a `COOND` with a coordinate stored
  three times depends on how `sort_unstable_by` leaves equal keys.
* `eliminate_zeros_nan` - `eliminate_zeros()` keeps a stored NaN if no entry is zero and drops
  it otherwise.
* `stale_disagree` - the constructors keep the caller's arrays and the native handle holds
  a copy of them: after `x.data[...] = w`, `x.toarray()` and `abs(x)` show the new values,
  `x.T`, `x.sum()`, `x + y` and `x @ y` the old ones.
* `rebind_indptr_ub` - `x.indptr = a` is accepted without any check, also on a validated object;
  with `a = [0, 5, 1]` `remainder(x, x)` and `pow(x, x)` read outside the arrays (`rebind_length_raises`:
  an array of values of the wrong length is noticed then).
* `rebind_shape_ub`, `rebind_shape_ub_csc`, `rebind_shape_ub_coo` - `x.shape = (r, c)` is not checked either; `tensordot`
  passes it on with `check=False`, and with too few columns or rows reads behind the end of its dense operand (`CSR`, `COO`)
  or writes behind the end of its result (`CSC`, `COO`).  `x @ y` raises instead (`rebind_shape_at`).
* `index_write_ub` - after writing to the array `indptr` of a validated object, `remainder(x, x)`
  and `pow(x, x)` read outside the arrays.
* `py_prod_sparse` - `prod` of a matrix with an unstored cell is 0 even if a `NaN`
  or an infinity is stored; NumPy multiplies them by 0 and returns `NaN`.
* `operator_differs` - `x * y`, `x / y`, `x // y`, `x % y` and `x ** y` of two sparse
  matrices of one class raise `TypeError`, `multiply(x, y)`, `divide(x, y)`, ... return.
* `operator_mixed` - `x + y` of a `CSR` and a `CSC` raises `TypeError`; `add(x, y)` and the
  documentation of `CSR.__add__` say `NotImplementedError`.
* `named_method_unknown` - `x.multiply(y)` with `y` of another kind returns the constant
  `NotImplemented`.
* `stack_leaks`, `dispatch1_leaks` - `stack` and `concat` of sparse objects, `count_nonzero` and
  `matrix_transpose` of a `COOND` are handed to NumPy, which sees arrays of Python objects.
* `capabilities_exact` - `all`, `any`, `diff` and `astype` are missing from the reported
  capabilities.
* `promote_unsigned`, `promote_int32_float32` - `promote_dtypes("uint32", "uint32")` raises, and
  `int32` with `float32` gives `float32`, which cannot hold 2^24 + 1.
* `threads_disagree` - after the first parallel kernel `set_num_threads(n)` only changes what
  `get_num_threads()` reports.
* `tensordot_race` - `tensordot(x, y)` and `vecdot(x, y, axis=0)` let the kernel read the NumPy array `y`
  without the GIL: a write to `y` by another Python thread is a data race; `x @ y` copies `y` first.
* `py_vecdot_classes_disagree` - `vecdot(x, y, axis=0)` with a stored infinity or NaN and
  a zero weight is 0 for `CSR` and `COO` but NaN for `CSC` (NumPy: NaN).
* `py_cumprod_gap` - `cumprod` is 0 from the first empty cell on, also if a NaN or an infinity is stored
  before or after it; the product of the dense row is NaN.
* `div_not_nearest`, `div_tiny`, `nan_lost`, `infinity_lost` - in binary64 `x / alpha` is a product with
  the reciprocal (not the nearest number, infinite for tiny divisors), factors 0 and missing entries turn
  `NaN` and infinities into 0, and quotients that overflow are dropped.
* `floordiv_tenth`, `rem_negative` - `floor_divide([[1]], 0.1)` is 10 (NumPy: 9) and
  `remainder([[3.9]], 1.3)` is negative.
* `var_cancels` - `var([[2**27, 2**27 + 1]])` is 0 instead of 1/4.
* `matmul_strided_raises`, `vecdot_strided_raises` - a vector that is not contiguous (a column
  of a matrix, `v[::2]`, `v[::-1]`) is refused with `TypeError`; an `int64` vector with the
  same strides is accepted.
* `tensordot_int_raises`, `vecdot_int`, `tensordotNd_int_raises`, `vecdotNd_int_raises` - arrays
  of another dtype are refused by `tensordot` with two or more dimensions, by `vecdot` along
  axis 0 and by `COOND`, and converted along axis 1.
* `tensordot_strided_raises` - `tensordot` refuses `y[:, :1]`, which `matmul` accepts.
* `new_strided` - `CSC` and `COO` return an unusable object for arrays with gaps, also with
  `check=True`; `CSR` raises (`new_csr_strided`).
* `newNd_matrix_indices` - `COOND` accepts an index array of shape `(nnz, ndim)`, but every
  call on the object raises `TypeError`.
* `fortran_slice` - `spmm_from_parts` reads a Fortran-ordered matrix column by column; no
  call of the array API reaches it with an object made by a constructor.
* `f64_quotient_zero` - `divide`, `floor_divide` and `remainder` of two arrays are zero where the divisor is zero or the
  dividend infinite or one of them `NaN` (C94); NumPy has infinities and `NaN` there.
* `cumsum_outside_ub` - with `check=False` a stored column `ncols` is written behind
  the row's chunk.
* `transpose_duplicates_lost` - with a repeated index in a row (possible with
  `check=False`) the transpose loses an entry.
* `spmm_length_check_wraps` - the length check of the dense factor wraps, so an
  empty buffer can pass it.
* `add_coond_last_cell_lost`, `add_nd_last_cell_panics` - the entry with linear key
  `usize::MAX` is lost, or stops the debug build
  (the key is the hash map's reserved marker).
* `reshape_index_wraps`, `unfold_index_wraps` - indices beyond `i64::MAX` wrap to
  negative numbers.

Wrong results on repeated COO coordinates (accepted by the checked constructor):
`abs_coo_duplicates_wrong`, `sign_coo_duplicates_wrong`,
`minmax_coo_duplicates_wrong`, `prod_coo_duplicates_wrong`,
`var_coo_duplicates_wrong`, `all_any_coond_duplicates_wrong`,
`scalar_floordiv_coo_duplicates_wrong`,
`count_nonzero_coo_duplicates`, `toarray_csr_duplicates_differ` (CSR).

Implicit or explicit zeros, NaN:

* `scalar_pow_zero_wrong` - `x ** 0` leaves implicit zeros at 0.
* `count_nonzero_explicit_zero` - explicit zeros are counted.
* `broadcast_keeps_zeros` - contrary to its documentation broadcast multiply keeps
  zero products.
* `prune_nan_inconsistent`, `vecdot_nan_differs`, `min_nan_is_infinity`,
  `cumprod_nan_lost` - NaN handling differs between formats or is lost.
* `var_count_saturates` - from 2^64 cells on the count saturates.

Degenerate shapes and Python indexing:

* `spmm_csr_no_columns_panics`, `tensordot_csr_zero_dim_panics`,
  `matmul_csr_empty_panics` - panics for CSR where CSC/COO return an empty array.
* `tensordot_nd_collapses_axes` - wrong result shape for rank >= 3.
* `broadcast_zero_extent` - extent 0 against 1 gives 1 instead of 0.
* `line_minmax_no_cells` - minimum of a line without cells is 0.
* `py_mean_empty` - `mean` of a matrix without elements raises `ZeroDivisionError`.
* `py_coond_all_axes_panics` - listing every axis of an N-D array panics.
* `getrow_csr_minus_one`, `getrow_csr_negative`, `getcol_csr_out_of_range`,
  `getitem_csr_unsorted_wrong` - negative and out-of-range row/column slices.
