import Verif.Lemmas.PyLinalg
/-
C72: `matmul`, `tensordot` and `vecdot` on the objects of the Python classes, down to the unsafe
kernels.
-/
namespace Lacuna
variable {V : Type}

/-! ### Construction -/

/-- Arrays that pass the validation: with either value of `check` the object holds a valid native
matrix with the given shape and number of entries. -/
theorem py_new_valid {cls : Cls} {r c : Int} {ix1 ix2 : List Int} {data : List V} {a : Native V}
    (h1 : ∀ j ∈ ix1, j ≤ i64Max) (h2 : ∀ j ∈ ix2, j ≤ i64Max) (h : nativeOf cls r c ix1 ix2 data true = .ok a) (chk : Bool) :
    ∃ x, PySp.new cls r c ix1 ix2 data chk = .ok x ∧ x.Holds a ∧ a.Valid ∧ a.nnz = data.length := by
  obtain ⟨hv, e1, e2, e3, hf⟩ := nativeOf_true_ok h1 h2 h
  refine ⟨⟨cls, r, c, ix1, ix2, data, some a⟩, ?_, ⟨e1, e2, rfl, hf⟩, hv, e3⟩
  cases cls with
  | csr => unfold PySp.new; rw [hf]; cases chk
           · rfl
           · rw [h]; rfl
  | csc => unfold PySp.new; cases chk <;> (simp only [h, hf]; rfl)
  | coo => unfold PySp.new; cases chk <;> (simp only [h, hf]; rfl)

/-- Arrays that fail it: `CSR(…)` raises; `CSC(…)` and `COO(…)` return an object, on which `@`
raises (`ValueError` for a wrong length, `RuntimeError` otherwise). -/
theorem py_new_invalid {cls : Cls} {r c : Int} {ix1 ix2 : List Int} {data : List V} {e : PyErr}
    (h : nativeOf cls r c ix1 ix2 data true = .error e) :
    (cls = .csr → PySp.new cls r c ix1 ix2 data true = .error e) ∧
    (cls ≠ .csr → ∃ x, PySp.new cls r c ix1 ix2 data true = .ok x ∧ x.nrows = r ∧ x.ncols = c ∧
      x.parts = nativeOf cls r c ix1 ix2 data false ∧ x.operand = .error .runtimeError) := by
  refine ⟨?_, fun hc => ?_⟩
  · rintro rfl
    unfold PySp.new
    rw [h]
    rfl
  · refine ⟨⟨cls, r, c, ix1, ix2, data, none⟩, ?_, rfl, rfl, rfl, ?_⟩
    · unfold PySp.new
      cases cls
      · exact absurd rfl hc
      · simp only [h]; rfl
      · simp only [h]; rfl
    · unfold PySp.operand
      rw [if_neg hc]

/-! ### Values -/

section
variable [CommSemiring V] [BEq V] [LawfulBEq V] [HasFma V] [IdealFma V]
variable {dbg : Bool} {nthreads : Nat} {x : PySp V} {a : Native V}

omit [BEq V] [LawfulBEq V] in
theorem py_matvec_correct (hx : x.Holds a) (hv : a.Valid) (hf : a.Fits) {y : List V} (hy : y.length = a.cols)
    (out : PyRes (DenseNd V)) : MatVec dbg nthreads x y out ↔ out = .ret ⟨[a.rows], (List.range a.rows).map fun i =>
      ((List.range a.cols).map fun j => a.val i j * y.getD j 0).sum⟩ := by
  unfold MatVec
  rw [if_neg (by rw [hx.2.1]; omega), PySp.operand_holds hx]
  simp only [spmvOut_iff dbg nthreads hv hf hy, exists_eq_left]
  simp [PyRes.ofKernel, PyRes.bind]

omit [BEq V] [LawfulBEq V] in
/-- `x @ y` and `matmul(x, y)` for a one-dimensional `y`: one possible outcome, the vector
`Σ_j x(i,j) y(j)`, for every class, build, number of threads and schedule. -/
theorem py_matmul_vec_correct (hx : x.Holds a) (hv : a.Valid) (hf : a.Fits) {y : DenseNd V} (hs : y.shape = [a.cols])
    (hy : y.Ok) (out : PyRes (DenseNd V)) : PyMatmul dbg nthreads x y out ↔
      out = .ret ⟨[a.rows], (List.range a.rows).map fun i =>
        ((List.range a.cols).map fun j => a.val i j * y.data.getD j 0).sum⟩ := by
  unfold PyMatmul AtMul
  rw [hs]
  exact py_matvec_correct hx hv hf (by rw [hy.1, hs]; simp) out

omit [BEq V] [LawfulBEq V] [IdealFma V] in
theorem py_atmul_correct (hx : x.Holds a) (hv : a.Valid) (hf : a.Fits) {b : List V} {k : Nat} (hk : 0 < k)
    (hb : b.length = a.cols * k) (hbs : 8 * (b.length : Int) ≤ i64Max) (hsz : 8 * ((a.rows * k : Nat) : Int) ≤ i64Max) :
    ∃ r, IsMatProd a.rows a.cols k a.val b r ∧
      ∀ out, AtMul dbg nthreads x ⟨[a.cols, k], b⟩ out ↔ out = .ret ⟨[a.rows, k], r⟩ := by
  obtain ⟨r, hr, h⟩ := spmmOut_iff dbg hv hf hk hb hbs hsz
  refine ⟨r, hr, fun out => ?_⟩
  show MatMat dbg x a.cols k b out ↔ _
  unfold MatMat
  rw [if_neg (by rw [hx.2.1]; simp), PySp.operand_holds hx]
  simp only [h, exists_eq_left]
  rw [if_neg (by simp)]
  simp [PyRes.ofKernel, PyRes.bind, fromShapeVec, hr.1]

omit [BEq V] [LawfulBEq V] [IdealFma V] in
/-- `matmul(x, y)` for `y` of shape `(cols, k)`, `k > 0`. -/
theorem py_matmul_mat_correct (hx : x.Holds a) (hv : a.Valid) (hf : a.Fits) {y : DenseNd V} {k : Nat} (hs : y.shape = [a.cols, k])
    (hk : 0 < k) (hy : y.Ok) (hsz : 8 * ((a.rows * k : Nat) : Int) ≤ i64Max) :
    ∃ r, IsMatProd a.rows a.cols k a.val y.data r ∧
      ∀ out, PyMatmul dbg nthreads x y out ↔ out = .ret ⟨[a.rows, k], r⟩ := by
  obtain ⟨sh, b⟩ := y
  obtain rfl : sh = [a.cols, k] := hs
  obtain ⟨r, hr, h⟩ := py_atmul_correct hx hv hf (nthreads := nthreads) (dbg := dbg) (b := b) hk
    (by have := hy.1; simpa using this) hy.2 hsz
  exact ⟨r, hr, h⟩

omit [BEq V] [LawfulBEq V] [IdealFma V] in
/-- Batched `matmul(x, y)`, `y` of shape `batch ++ (cols, n)` with at least three axes and not
empty. -/
theorem py_matmul_batch_correct (hx : x.Holds a) (hv : a.Valid) (hf : a.Fits) {y : DenseNd V} {batch : List Nat} {n : Nat}
    (hs : y.shape = batch ++ [a.cols, n]) (hb : batch ≠ []) (hk : 0 < batch.prod * n) (hy : y.Ok)
    (hsz : 8 * ((a.rows * (batch.prod * n) : Nat) : Int) ≤ i64Max) :
    ∃ r, IsBatchProd batch a.rows a.cols n a.val y.data r ∧
      ∀ out, PyMatmul dbg nthreads x y out ↔ out = .ret ⟨batch ++ [a.rows, n], r⟩ := by
  have hl : (swap01 batch.prod a.cols n y.data).length = a.cols * (batch.prod * n) := by
    rw [swap01_length]; 
  have hyl : y.data.length = a.cols * (batch.prod * n) := by
    rw [hy.1, hs, List.prod_append]; simp; ring
  obtain ⟨r, hr, h⟩ := py_atmul_correct hx hv hf (nthreads := nthreads) (dbg := dbg)
    (b := swap01 batch.prod a.cols n y.data) hk hl (by rw [hl, ← hyl]; exact hy.2) hsz
  refine ⟨swap01 a.rows batch.prod n r, ?_, fun out => ?_⟩
  · exact matmul_of_product (prod := fun b k y' => b = swap01 batch.prod a.cols n y.data ∧ k = batch.prod * n ∧ y' = r)
      (fun b y' _ hp => by rw [hp.1, hp.2.2]; exact hr) ⟨rfl, r, ⟨rfl, rfl, rfl⟩, rfl⟩
  · have hb1 : 0 < batch.length := List.length_pos_iff.2 hb
    unfold PyMatmul
    rw [if_neg (by rw [hs]; simp; omega)]
    have e1 : y.shape.length - 2 = batch.length := by rw [hs]; simp
    have e2 : y.shape.length - 1 = batch.length + 1 := by rw [hs]; simp
    have e3 : y.shape.take (y.shape.length - 2) = batch := by rw [e1, hs]; simp
    have e4 : y.shape.getD (y.shape.length - 2) 0 = a.cols := by rw [e1, hs]; simp
    have e5 : y.shape.getD (y.shape.length - 1) 0 = n := by rw [e2, hs]; simp
    simp only [e3, e4, e5, hx.1, hx.2.1]
    rw [if_neg (by simp)]
    simp only [h, exists_eq_left]
    simp [PyRes.bind]

omit [BEq V] [LawfulBEq V] [IdealFma V] in
/-- `tensordot(x, y, axes=1)` (equivalently `axes=([1], [0])`) for `y` of shape `cols :: rest`,
`rest` not empty and of positive product. -/
theorem py_tensordot_correct (hx : x.Holds a) (hv : a.Valid) (hf : a.Fits) {axes : AxesArg} (hax : axes2d axes = .ok ())
    {y : DenseNd V} {rest : List Nat} (hs : y.shape = a.cols :: rest) (hr0 : rest ≠ []) (hk : 0 < rest.prod) (hy : y.Ok)
    (hr : rest.prod ≤ usizeMax) (hsz : 8 * ((a.rows * rest.prod : Nat) : Int) ≤ i64Max) :
    ∃ r, IsTensordot a.rows a.cols rest a.val y.data r ∧
      ∀ out, PyTensordot dbg nthreads axes x y out ↔ out = .ret ⟨a.rows :: rest, r⟩ := by
  have hyl : y.data.length = a.cols * rest.prod := by rw [hy.1, hs, List.prod_cons]
  obtain ⟨r, hr', h⟩ := spmmOut_iff dbg hv hf hk hyl hy.2 hsz
  refine ⟨r, isTensordot_of_matProd hr', fun out => ?_⟩
  unfold PyTensordot
  have hc : tensordotCols a.cols y.data.length (a.cols :: rest) = some rest.prod :=
    tensordotCols_eq hk hr (by rw [← hyl]; exact bytes_usize hy.2) hyl
  obtain ⟨d, rest, rfl⟩ := List.exists_cons_of_ne_nil hr0
  rw [hax, hs]
  dsimp only
  rw [if_neg (by rw [hx.2.1]; simp), hx.2.2.2]
  dsimp only
  rw [if_neg (by simp)]
  unfold TensordotOut
  simp only [hc, h, exists_eq_left]
  simp [PyRes.ofKernel, PyRes.bind, fromShapeVec, hr'.1]

omit [BEq V] [LawfulBEq V] in
/-- `tensordot` with a one-dimensional `y`. -/
theorem py_tensordot_vec_correct (hx : x.Holds a) (hv : a.Valid) (hf : a.Fits) {axes : AxesArg} (hax : axes2d axes = .ok ())
    {y : DenseNd V} (hs : y.shape = [a.cols]) (hy : y.Ok) (out : PyRes (DenseNd V)) :
    PyTensordot dbg nthreads axes x y out ↔ out = .ret ⟨[a.rows], (List.range a.rows).map fun i =>
      ((List.range a.cols).map fun j => a.val i j * y.data.getD j 0).sum⟩ := by
  unfold PyTensordot
  rw [hax, hs]
  dsimp only
  rw [if_neg (by rw [hx.2.1]; simp)]
  exact py_matvec_correct hx hv hf (by rw [hy.1, hs]; simp) out

/-- `vecdot(x, y)`: along the last axis (`axis` `None`, `-1`, `1`) `Σ_j x(i,j) y(j)`, along axis 0
`Σ_i x(i,j) y(i)`. -/
theorem py_vecdot_correct (hx : x.Holds a) (hv : a.Valid) (hf : a.Fits) {y : DenseNd V} (hy : y.Ok) (out : PyRes (DenseNd V)) :
    (y.shape = [a.cols] → ∀ axis, axis = none ∨ axis = some (-1) ∨ axis = some 1 →
      (PyVecdot dbg nthreads axis x y out ↔ out = .ret ⟨[a.rows], (List.range a.rows).map fun i =>
        ((List.range a.cols).map fun j => a.val i j * y.data.getD j 0).sum⟩)) ∧
    (y.shape = [a.rows] →
      (PyVecdot dbg nthreads (some 0) x y out ↔ out = .ret ⟨[a.cols], (List.range a.cols).map fun j =>
        ((List.range a.rows).map fun i => a.val i j * y.data.getD i 0).sum⟩)) := by
  refine ⟨fun hs axis hax => ?_, fun hs => ?_⟩
  · unfold PyVecdot
    rw [hs]
    dsimp only
    rw [if_pos hax, if_neg (by rw [hx.2.1]; simp)]
    exact py_matvec_correct hx hv hf (by rw [hy.1, hs]; simp) out
  · unfold PyVecdot
    rw [hs]
    dsimp only
    rw [if_neg (by simp), if_pos rfl, if_neg (by rw [hx.1]; simp), hx.2.2.2]
    dsimp only
    simp only [vecdotOut_iff dbg nthreads hv hf (show y.data.length = a.rows by rw [hy.1, hs]; simp), exists_eq_left]
    simp [PyRes.ofKernel, PyRes.bind]

end

/-! ### Exceptions -/

section
variable [Zero V] [Add V] [Mul V] [BEq V] [HasFma V]

omit [BEq V] in
/-- Operands of the wrong shape raise `ValueError` before any kernel runs, whatever the arrays of the
object are. -/
theorem py_matmul_rejects (dbg : Bool) (nthreads : Nat) (x : PySp V) (y : DenseNd V) (out : PyRes (DenseNd V)) :
    (y.shape = [] → (PyMatmul dbg nthreads x y out ↔ out = .raises .valueError)) ∧
    (∀ n, y.shape = [n] → (y.data.length : Int) ≠ x.ncols → (PyMatmul dbg nthreads x y out ↔ out = .raises .valueError)) ∧
    (∀ (batch : List Nat) (k n : Nat), y.shape = batch ++ [k, n] → (k : Int) ≠ x.ncols →
      (PyMatmul dbg nthreads x y out ↔ out = .raises .valueError)) := by
  refine ⟨fun h => ?_, fun n h hn => ?_, fun batch k n h hn => ?_⟩
  · unfold PyMatmul AtMul; rw [h]; rfl
  · unfold PyMatmul AtMul MatVec
    rw [h]
    dsimp only
    rw [if_pos (by simp), if_pos hn]
  · unfold PyMatmul
    cases hb : batch with
    | nil =>
      subst hb
      unfold AtMul MatMat
      rw [h]
      dsimp only
      rw [if_pos (by simp)]
      dsimp
      rw [if_pos hn]
    | cons d ds =>
      have hb1 : 0 < batch.length := by rw [hb]; simp
      rw [if_neg (by rw [h, List.length_append]; simp only [List.length_cons, List.length_nil]; omega)]
      have e1 : y.shape.length - 2 = batch.length := by rw [h]; simp
      have e4 : y.shape.getD (y.shape.length - 2) 0 = k := by rw [e1, h]; simp
      dsimp only
      rw [e4, if_pos hn]

omit [BEq V] in
/-- `tensordot`: any other `axes` and any other first dimension. -/
theorem py_tensordot_rejects (dbg : Bool) (nthreads : Nat) (x : PySp V) (y : DenseNd V) (out : PyRes (DenseNd V)) :
    (∀ n, n ≠ 1 → (PyTensordot dbg nthreads (.int n) x y out ↔ out = .raises .notImplemented)) ∧
    (∀ p q ps qs, ¬ (p = 1 ∧ q = 0) →
      (PyTensordot dbg nthreads (.pair (p :: ps) (q :: qs)) x y out ↔ out = .raises .notImplemented)) ∧
    (∀ axes d rest, axes2d axes = .ok () → y.shape = d :: rest → (d : Int) ≠ x.ncols →
      (PyTensordot dbg nthreads axes x y out ↔ out = .raises .valueError)) := by
  refine ⟨fun n hn => ?_, fun p q ps qs h => ?_, fun axes d rest ha hs hd => ?_⟩
  · unfold PyTensordot axes2d; simp [hn]
  · have e : axes2d (.pair (p :: ps) (q :: qs)) = .error .notImplemented := by
      unfold axes2d
      exact if_pos (by by_contra hc; push Not at hc; exact h hc)
    unfold PyTensordot
    rw [e]
  · unfold PyTensordot
    rw [ha, hs]
    cases rest <;> (dsimp only; rw [if_pos hd])

/-- `vecdot`: any other axis, a `y` that is not a vector, a wrong length. -/
theorem py_vecdot_rejects (dbg : Bool) (nthreads : Nat) (x : PySp V) (y : DenseNd V) (out : PyRes (DenseNd V)) :
    (∀ axis, y.shape.length ≠ 1 → (PyVecdot dbg nthreads axis x y out ↔ out = .raises .notImplemented)) ∧
    (∀ (axis : Int), axis ≠ -1 → axis ≠ 0 → axis ≠ 1 →
      (PyVecdot dbg nthreads (some axis) x y out ↔ out = .raises .notImplemented)) ∧
    (∀ n : Nat, y.shape = [n] → ((n : Int) ≠ x.ncols → (PyVecdot dbg nthreads none x y out ↔ out = .raises .valueError)) ∧
      ((n : Int) ≠ x.nrows → (PyVecdot dbg nthreads (some 0) x y out ↔ out = .raises .valueError))) := by
  refine ⟨fun axis h => ?_, fun axis h1 h2 h3 => ?_, fun n hs => ⟨fun hn => ?_, fun hn => ?_⟩⟩
  · unfold PyVecdot
    match hs : y.shape with
    | [] => rfl
    | [n] => rw [hs] at h; exact absurd rfl h
    | _ :: _ :: _ => rfl
  · unfold PyVecdot
    match hs : y.shape with
    | [] => rfl
    | [n] => dsimp only; rw [if_neg (by simp [h1, h3]), if_neg (by simp [h2])]
    | _ :: _ :: _ => rfl
  · unfold PyVecdot; rw [hs]; dsimp only; rw [if_pos (.inl rfl), if_pos hn]
  · unfold PyVecdot; rw [hs]; dsimp only; rw [if_neg (by simp), if_pos rfl, if_pos hn]

omit [BEq V] in
/-- Disagreement: only the first entry of each list of `axes` is read.  A contraction over two axes
pairs, which NumPy carries out (or rejects), silently gives the result of `axes=1`. -/
theorem py_tensordot_ignores_axes (dbg : Bool) (nthreads : Nat) (ps qs : List Int) (x : PySp V) (y : DenseNd V)
    (out : PyRes (DenseNd V)) :
    PyTensordot dbg nthreads (.pair (1 :: ps) (0 :: qs)) x y out ↔ PyTensordot dbg nthreads (.int 1) x y out := Iff.rfl

omit [BEq V] in
/-- With an empty axis after the first one the `CSR` product panics (a chunk length of zero), while
`CSC` and `COO` return the empty array.  `hr` says that the checked products of the dimensions do
not overflow. -/
theorem py_tensordot_empty (dbg : Bool) (nthreads : Nat) {axes : AxesArg} (hax : axes2d axes = .ok ()) {x : PySp V} {a : Native V}
    (hx : x.Holds a) {d : Nat} {rest : List Nat} (hr : tensordotCols a.cols 0 (a.cols :: d :: rest) = some 0)
    (out : PyRes (DenseNd V)) :
    PyTensordot dbg nthreads axes x ⟨a.cols :: d :: rest, []⟩ out ↔
      out = match a with
        | .csr _ => .raises .panic
        | _ => .ret ⟨a.rows :: d :: rest, []⟩ := by
  have h : ∀ o : Except Fault (List V), Settles (fun N => TensordotOut dbg N a [] (a.cols :: d :: rest)) o ↔
      o = match a with
        | .csr _ => .error .panic
        | _ => .ok [] := by
    intro o
    refine settles_iff 0 fun N hN o => ?_
    unfold TensordotOut
    rw [show ([] : List V).length = 0 from rfl, hr]
    cases a with
    | csr a => exact (spmm_ptr_no_columns (dbg := dbg) (F := N) o).1 a
    | csc a => exact (spmm_ptr_no_columns (dbg := dbg) (F := N) o).2.2.1 a
    | coo a => exact (spmm_ptr_no_columns (dbg := dbg) (F := N) o).2.2.2 a
  unfold PyTensordot
  rw [hax]
  dsimp only
  rw [if_neg (by rw [hx.2.1]; simp), hx.2.2.2]
  dsimp only
  rw [if_neg (by simp)]
  simp only [h, exists_eq_left]
  have e := (tensordotCols_fits hr).2.2
  rw [List.drop_one, List.tail_cons] at e
  rw [← e]
  cases a <;> simp [PyRes.ofKernel, PyRes.bind, fromShapeVec]

/-! ### No undefined behaviour on validated objects -/

theorem asUsize_lt_of_bounds {x : Int} {n : Nat} (h0 : 0 ≤ x) (h1 : x < n) (h2 : x ≤ i64Max) : asUsize x < n := by
  rw [asUsize_eq h0 h2]; omega

omit [BEq V] in
theorem spmvOut_no_ub {dbg : Bool} {nthreads : Nat} {a : Native V} (hv : a.Valid) (hf : a.Fits) {x : List V}
    {o : Except Fault (List V)} (h : Settles (fun N => SpmvOut dbg nthreads N a x) o) : o ≠ .error .ub := by
  cases a with
  | csr a =>
    refine settles_ne (a.indices.length + 1) (fun N hN o ho => ?_) h
    rw [show SpmvOut dbg nthreads N (.csr a) x o = SpmvPtrRun dbg N a x o from rfl,
      spmv_csr_ptr (Comp.WFU.ptrOk hv) (Comp.WFU.idxOk hv) (hf.csr hv) x dbg (by omega)] at ho
    rw [ho]; split <;> simp
  | csc a =>
    refine settles_ne 0 (fun N hN o ho => spmv_csc_no_ub (fun _ _ _ j hj => .inl ?_) ho) h
    obtain ⟨b1, b2⟩ := Comp.WFU.bounds hv j hj
    exact asUsize_lt_of_bounds b1 b2 (Comp.Machine.i64 (hf.csc hv) j hj)
  | coo a =>
    refine settles_ne 0 (fun N hN o ho => spmv_coo_no_ub (fun _ _ _ j hj => .inl ?_) ho) h
    obtain ⟨b1, b2⟩ := hv.1.row_bounds j hj
    exact asUsize_lt_of_bounds b1 b2 (hv.2.1 j hj)

theorem vecdotOut_no_ub {dbg : Bool} {nthreads : Nat} {a : Native V} (hv : a.Valid) (hf : a.Fits) {x : List V}
    {o : Except Fault (List V)} (h : Settles (fun N => VecdotOut dbg nthreads N a x) o) : o ≠ .error .ub := by
  cases a with
  | csr a => exact settles_ne 0 (fun N hN o ho => vecdot_csr_no_ub ho) h
  | csc a =>
    refine settles_ne (a.indices.length + 1) (fun N hN o ho => ?_) h
    rw [show VecdotOut dbg nthreads N (.csc a) x o = VecdotCscPtrRun dbg N a x o from rfl,
      vecdot_csc_ptr (Comp.WFU.ptrOk hv) (Comp.WFU.idxOk hv) (hf.csc hv) x dbg (by omega)] at ho
    rw [ho]; split <;> simp
  | coo a =>
    refine settles_ne 0 (fun N hN o ho => vecdot_coo_no_ub (fun j hj => .inl ?_) ho) h
    obtain ⟨b1, b2⟩ := hv.1.col_bounds j hj
    exact asUsize_lt_of_bounds b1 b2 (hv.2.2 j hj)

omit [BEq V] [HasFma V] in
theorem spmmOut_no_ub {dbg : Bool} {a : Native V} (hv : a.Valid) (hf : a.Fits) {b : List V} {k : Nat}
    (hm : a.cols * k ≤ usizeMax) (hn : a.rows * k ≤ usizeMax)
    {o : Except Fault (List V)} (h : Settles (fun N => SpmmOut dbg N a b k) o) : o ≠ .error .ub := by
  cases a with
  | csr a =>
    refine settles_ne 129 (fun N hN o ho => spmm_csr_no_ub (fun j hj => ?_) hm hn (by omega) ho) h
    obtain ⟨b1, b2⟩ := Comp.WFU.bounds hv j hj
    exact asUsize_lt_of_bounds b1 b2 (Comp.Machine.i64 (hf.csr hv) j hj)
  | csc a =>
    refine settles_ne 129 (fun N hN o ho => spmm_csc_no_ub (fun j hj => ?_) hm hn (by omega) ho) h
    obtain ⟨b1, b2⟩ := Comp.WFU.bounds hv j hj
    exact asUsize_lt_of_bounds b1 b2 (Comp.Machine.i64 (hf.csc hv) j hj)
  | coo a =>
    refine settles_ne 129 (fun N hN o ho => spmm_coo_no_ub (fun j hj => ?_) (fun j hj => ?_) hm hn (by omega) ho) h
    · obtain ⟨b1, b2⟩ := hv.1.row_bounds j hj
      exact asUsize_lt_of_bounds b1 b2 (hv.2.1 j hj)
    · obtain ⟨b1, b2⟩ := hv.1.col_bounds j hj
      exact asUsize_lt_of_bounds b1 b2 (hv.2.2 j hj)

omit [BEq V] in
theorem matVec_no_ub {dbg : Bool} {nthreads : Nat} {x : PySp V} {a : Native V} (hx : x.Holds a) (hv : a.Valid) (hf : a.Fits)
    {y : List V} {out : PyRes (DenseNd V)} (h : MatVec dbg nthreads x y out) : out ≠ .ub := by
  unfold MatVec at h
  split at h
  · rw [h]; simp
  · rw [PySp.operand_holds hx] at h
    obtain ⟨o, ho, rfl⟩ := h
    exact PyRes.bind_ne_ub (PyRes.ofKernel_ne_ub (spmvOut_no_ub hv hf ho)) fun _ => by simp

omit [BEq V] in
theorem atMul_no_ub {dbg : Bool} {nthreads : Nat} {x : PySp V} {a : Native V} (hx : x.Holds a) (hv : a.Valid) (hf : a.Fits)
    {y : DenseNd V} (hsz : ∀ m k, y.shape = [m, k] → m * k ≤ usizeMax ∧ a.rows * k ≤ usizeMax)
    {out : PyRes (DenseNd V)} (h : AtMul dbg nthreads x y out) : out ≠ .ub := by
  unfold AtMul at h
  split at h
  · exact matVec_no_ub hx hv hf h
  · rename_i m k hs
    obtain ⟨h1, h2⟩ := hsz m k hs
    unfold MatMat at h
    rw [PySp.operand_holds hx] at h
    dsimp only at h
    split at h
    · rw [h]; simp
    split at h
    · rw [h]; simp
    rename_i _ hc
    obtain ⟨o, ho, rfl⟩ := h
    exact PyRes.bind_ne_ub (PyRes.ofKernel_ne_ub (spmmOut_no_ub hv hf (by rw [← not_ne_iff.1 hc]; exact h1) h2 ho))
      fun _ => fromShapeVec_ne_ub _ _ _
  · rw [h]; simp

/-- Whatever the arithmetic (NaNs, infinities, rounding), the dense operand, the axes, the build, the
number of threads and the schedule: on an object that holds a valid native matrix none of the
three functions reaches undefined behaviour, as long as the number of elements of the result does
not wrap. -/
theorem py_linalg_no_ub {dbg : Bool} {nthreads : Nat} {x : PySp V} {a : Native V} (hx : x.Holds a) (hv : a.Valid) (hf : a.Fits)
    {y : DenseNd V} (hy : y.Ok) {out : PyRes (DenseNd V)} :
    (∀ axes, a.rows * y.shape.tail.prod ≤ usizeMax → PyTensordot dbg nthreads axes x y out → out ≠ .ub) ∧
    (∀ axis, PyVecdot dbg nthreads axis x y out → out ≠ .ub) ∧
    (a.rows * ((y.shape.take (y.shape.length - 2)).prod * y.shape.getD (y.shape.length - 1) 0) ≤ usizeMax →
      PyMatmul dbg nthreads x y out → out ≠ .ub) := by
  refine ⟨fun axes hsz h => ?_, fun axis h => ?_, fun hsz h => ?_⟩
  · unfold PyTensordot at h
    split at h
    · rw [h]; simp
    split at h
    · rw [h]; simp
    · split at h
      · rw [h]; simp
      · exact matVec_no_ub hx hv hf h
    · rename_i d rest _ hs
      rw [hx.2.2.2] at h
      dsimp only at h
      split at h
      · rw [h]; simp
      split at h
      · rw [h]; simp
      rename_i _ hc
      obtain ⟨o, ho, rfl⟩ := h
      refine PyRes.bind_ne_ub (PyRes.bind_ne_ub (PyRes.ofKernel_ne_ub ?_) fun _ => fromShapeVec_ne_ub _ _ _) fun _ => by simp
      unfold TensordotOut at ho
      cases hk : tensordotCols a.cols y.data.length (d :: rest) with
      | none =>
        simp only [hk] at ho
        rw [(settles_iff (run := fun _ o => o = Except.error Fault.panic) (x := .error .panic) 0 fun _ _ _ => Iff.rfl).1 ho]
        simp
      | some k =>
        simp only [hk] at ho
        obtain ⟨e1, e2, e3⟩ := tensordotCols_fits hk
        refine spmmOut_no_ub hv hf e2 ?_ ho
        rw [e3]; rw [hs] at hsz; exact hsz
  · unfold PyVecdot at h
    split at h
    · split at h
      · split at h
        · rw [h]; simp
        · exact matVec_no_ub hx hv hf h
      · split at h
        · split at h
          · rw [h]; simp
          · rw [hx.2.2.2] at h
            obtain ⟨o, ho, rfl⟩ := h
            exact PyRes.bind_ne_ub (PyRes.ofKernel_ne_ub (vecdotOut_no_ub hv hf ho)) fun _ => by simp
        · rw [h]; simp
    · rw [h]; simp
  · unfold PyMatmul at h
    split at h
    · refine atMul_no_ub hx hv hf (fun m k hs => ⟨?_, ?_⟩) h
      · have := bytes_usize hy.2
        rw [hy.1, hs] at this
        simpa using this
      · rw [hs] at hsz; simpa using hsz
    · rename_i hl
      dsimp only at h
      split at h
      · rw [h]; simp
      obtain ⟨o, ho, rfl⟩ := h
      refine PyRes.bind_ne_ub (atMul_no_ub hx hv hf (fun m k hs => ?_) ho) fun _ => by simp
      simp only [List.cons.injEq, and_true] at hs
      obtain ⟨rfl, rfl⟩ := hs
      refine ⟨?_, hsz⟩
      have h2 := bytes_usize hy.2
      rw [hy.1] at h2
      have e1 := List.take_append_drop (y.shape.length - 2) y.shape
      have e2 : y.shape.drop (y.shape.length - 2) = [y.shape.getD (y.shape.length - 2) 0, y.shape.getD (y.shape.length - 1) 0] := by
        rw [List.drop_eq_getElem_cons (by omega), List.drop_eq_getElem_cons (by omega),
          List.drop_eq_nil_of_le (by omega), List.getD_eq_getElem _ _ (by omega), List.getD_eq_getElem _ _ (by omega)]
        congr 2
        congr 1
        omega
      have e3 : y.shape.prod = (y.shape.take (y.shape.length - 2)).prod * (y.shape.getD (y.shape.length - 2) 0 * y.shape.getD (y.shape.length - 1) 0) := by
        conv_lhs => rw [← e1, List.prod_append, e2]
        simp
      rw [e3] at h2
      rwa [Nat.mul_left_comm]

/-! ### Undefined behaviour with the default `check=True` -/

omit [Zero V] [Add V] [Mul V] [BEq V] [HasFma V] in
/-- An object of class `COO` whose construction with `check=True` went through although the
validation rejected the arrays. -/
theorem py_coo_new_unvalidated {r c : Nat} {row col : List Int} {data : List V}
    (hr : r ≤ usizeMax) (hc : c ≤ usizeMax) (hrl : row.length = data.length) (hcl : col.length = data.length)
    (hw : ¬ (⟨r, c, row, col, data⟩ : Coo V).WF) :
    ∃ x, PySp.new .coo r c row col data true = .ok x ∧ x.nrows = r ∧ x.ncols = c ∧
      x.parts = .ok (.coo ⟨r, c, row, col, data⟩) ∧ x.operand = .error .runtimeError := by
  have ht : ∃ e, nativeOf .coo (r : Int) c row col data true = .error e := by
    rw [nativeOf_coo (pyUsize_nat hr) (pyUsize_nat hc)]
    cases hp : Coo.fromParts r c row col data true with
    | error m => exact ⟨_, rfl⟩
    | ok m =>
      obtain ⟨rfl, w⟩ := (coo_fromParts_iff r c row col data m).1 hp
      exact absurd w hw
  obtain ⟨e, he⟩ := ht
  obtain ⟨x, h1, h2, h3, h4, h5⟩ := (py_new_invalid he).2 (by simp)
  refine ⟨x, h1, h2, h3, ?_, h5⟩
  rw [h4, nativeOf_coo (pyUsize_nat hr) (pyUsize_nat hc)]
  unfold Coo.fromParts
  rw [if_neg (by
    rintro (h | h)
    · exact h hrl
    · exact h hcl)]
  rfl

omit [BEq V] in
/-- Disagreement: `COO(…)` with the default `check=True`, an index outside the shape: the constructor
succeeds, `@` raises `RuntimeError`, and `tensordot` reads or writes outside the dense arrays, in
both builds. -/
theorem py_tensordot_coo_ub (dbg : Bool) (nthreads : Nat) {axes : AxesArg} (hax : axes2d axes = .ok ())
    {r c : Nat} {row col : List Int} {data : List V} (hr0 : 0 < r)
    (hr : r ≤ usizeMax) (hc : c ≤ usizeMax) (hrl : row.length = data.length) (hcl : col.length = data.length)
    {y : DenseNd V} {d : Nat} {rest : List Nat} (hs : y.shape = c :: d :: rest) (hk : 0 < (d :: rest).prod) (hy : y.Ok)
    (hku : (d :: rest).prod + 128 ≤ usizeMax) (hsz : 8 * ((r * (d :: rest).prod : Nat) : Int) ≤ i64Max)
    (hpos : ∀ e ∈ (⟨r, c, row, col, data⟩ : Coo V).triples, 0 ≤ e.1.1 ∧ 0 ≤ e.1.2 ∧
      e.1.1.toNat * (d :: rest).prod + (d :: rest).prod ≤ usizeMax ∧ e.1.2.toNat * (d :: rest).prod + (d :: rest).prod ≤ usizeMax)
    (hbad : ∃ e ∈ (⟨r, c, row, col, data⟩ : Coo V).triples, (r : Int) ≤ e.1.1 ∨ (c : Int) ≤ e.1.2) :
    ∃ x, PySp.new .coo r c row col data true = .ok x ∧ x.operand = .error .runtimeError ∧
      PyTensordot dbg nthreads axes x y .ub := by
  have hw : ¬ (⟨r, c, row, col, data⟩ : Coo V).WF := by
    intro w
    obtain ⟨e, he, hb⟩ := hbad
    have hz := (List.of_mem_zip he).1
    have hz' := List.of_mem_zip hz
    rcases hb with hb | hb
    · exact absurd (w.row_bounds _ hz'.1).2 (by simpa using hb)
    · exact absurd (w.col_bounds _ hz'.2).2 (by simpa using hb)
  obtain ⟨x, h1, h2, h3, h4, h5⟩ := py_coo_new_unvalidated hr hc hrl hcl hw
  refine ⟨x, h1, h5, ?_⟩
  have hyl : y.data.length = c * (d :: rest).prod := by rw [hy.1, hs, List.prod_cons]
  have hcols : tensordotCols c y.data.length (c :: d :: rest) = some (d :: rest).prod :=
    tensordotCols_eq hk (by omega) (by rw [← hyl]; exact bytes_usize hy.2) hyl
  have hu : ∀ z : Int, 0 ≤ z → z.toNat * (d :: rest).prod + (d :: rest).prod ≤ usizeMax →
      i64ToUsize z = z.toNat ∧ z.toNat * (d :: rest).prod % 2 ^ 64 = z.toNat * (d :: rest).prod := by
    intro z h0 hz
    have hz1 : z.toNat ≤ z.toNat * (d :: rest).prod := Nat.le_mul_of_pos_right _ hk
    unfold usizeMax at hz
    refine ⟨?_, Nat.mod_eq_of_lt (by omega)⟩
    unfold i64ToUsize
    omega
  unfold PyTensordot
  rw [hax, hs]
  dsimp only
  rw [if_neg (by rw [h3]; simp), h4]
  dsimp only
  rw [if_neg (by simp [Native.cols])]
  refine ⟨.error .ub, ⟨129, fun N hN => ?_⟩, rfl⟩
  unfold TensordotOut
  rw [show (Native.coo (⟨r, c, row, col, data⟩ : Coo V)).cols = c from rfl, hcols]
  refine spmm_coo_ub (a := ⟨r, c, row, col, data⟩) (le_of_eq hrl.symm) (le_of_eq hcl.symm) hk hr0 hyl hy.2 (spmmZerosP_eq hsz) hku (by omega)
    (fun _ e he => ?_) ?_
  · obtain ⟨g1, g2, g3, g4⟩ := hpos e he
    rw [(hu _ g1 g3).1, (hu _ g2 g4).1]
    exact ⟨g1, g2, g3, g4⟩
  · obtain ⟨e, he, hb⟩ := hbad
    obtain ⟨g1, g2, g3, g4⟩ := hpos e he
    refine ⟨e, he, ?_⟩
    rw [(hu _ g1 g3).1, (hu _ g2 g4).1, (hu _ g1 g3).2, (hu _ g2 g4).2, List.length_replicate, hyl]
    rcases hb with hb | hb
    · exact .inr (Nat.mul_le_mul_right _ (show r ≤ _ by omega))
    · exact .inl (Nat.mul_le_mul_right _ (show c ≤ _ by omega))

omit [BEq V] in
/-- The same for `CSC(…)` with a stored row at or past the number of rows. -/
theorem py_tensordot_csc_ub (dbg : Bool) (nthreads : Nat) {axes : AxesArg} (hax : axes2d axes = .ok ())
    {a : Csc V} (hr0 : 0 < a.nrows) (hf : nativeOf .csc a.nrows a.ncols a.indptr a.indices a.data false = .ok (.csc a))
    (hp : a.comp.PtrOk) (hm : a.comp.Machine)
    {y : DenseNd V} {d : Nat} {rest : List Nat} (hs : y.shape = a.ncols :: d :: rest) (hk : 0 < (d :: rest).prod) (hy : y.Ok)
    (hku : (d :: rest).prod + 128 ≤ usizeMax) (hsz : 8 * ((a.nrows * (d :: rest).prod : Nat) : Int) ≤ i64Max)
    (hpos : ∀ j ∈ a.indices, 0 ≤ j ∧ j.toNat * (d :: rest).prod + (d :: rest).prod ≤ usizeMax)
    (hbad : ∃ j < a.ncols, ∃ e ∈ a.comp.row j, (a.nrows : Int) ≤ e.1) :
    ∃ x, PySp.new .csc a.nrows a.ncols a.indptr a.indices a.data true = .ok x ∧ x.operand = .error .runtimeError ∧
      PyTensordot dbg nthreads axes x y .ub := by
  have hmem : ∀ j, ∀ e ∈ a.comp.row j, e.1 ∈ a.indices := fun j e he =>
    (List.of_mem_zip (List.mem_of_mem_drop (List.mem_of_mem_take he))).1
  have ht : ∃ e, nativeOf .csc (a.nrows : Int) a.ncols a.indptr a.indices a.data true = .error e := by
    cases hn : nativeOf .csc (a.nrows : Int) a.ncols a.indptr a.indices a.data true with
    | error e => exact ⟨e, rfl⟩
    | ok b =>
      exfalso
      rw [nativeOf_csc] at hn
      cases hq : nativeNew .csc (a.nrows : Int) a.ncols a.indptr a.indices a.data true with
      | error e => rw [hq] at hn; cases hn
      | ok k =>
        obtain ⟨w, -, -, e1, e2, e3, e4, e5⟩ := nativeNew_true_ok hm.i64 hq
        obtain ⟨j, hj, e, he, hb⟩ := hbad
        have := (w.bounds e.1 (by rw [e4]; exact hmem j e he)).2
        have e1' : (a.nrows : Int) = k.m := e1
        omega
  obtain ⟨e, he⟩ := ht
  obtain ⟨x, h1, h2, h3, h4, h5⟩ := (py_new_invalid he).2 (by simp)
  refine ⟨x, h1, h5, ?_⟩
  rw [hf] at h4
  have hyl : y.data.length = a.ncols * (d :: rest).prod := by rw [hy.1, hs, List.prod_cons]
  have hcols : tensordotCols a.ncols y.data.length (a.ncols :: d :: rest) = some (d :: rest).prod :=
    tensordotCols_eq hk (by omega) (by rw [← hyl]; exact bytes_usize hy.2) hyl
  have hu : ∀ z : Int, 0 ≤ z → z.toNat * (d :: rest).prod + (d :: rest).prod ≤ usizeMax →
      i64ToUsize z = z.toNat ∧ z.toNat * (d :: rest).prod % 2 ^ 64 = z.toNat * (d :: rest).prod := by
    intro z h0 hz
    have hz1 : z.toNat ≤ z.toNat * (d :: rest).prod := Nat.le_mul_of_pos_right _ hk
    unfold usizeMax at hz
    refine ⟨?_, Nat.mod_eq_of_lt (by omega)⟩
    unfold i64ToUsize
    omega
  unfold PyTensordot
  rw [hax, hs]
  dsimp only
  rw [if_neg (by rw [h3]; simp), h4]
  dsimp only
  rw [if_neg (by simp [Native.cols])]
  refine ⟨.error .ub, ⟨129, fun N hN => ?_⟩, rfl⟩
  unfold TensordotOut
  rw [show (Native.csc a).cols = a.ncols from rfl, hcols]
  refine spmm_csc_ub hp hm hk hr0 hyl hy.2 (spmmZerosP_eq hsz) hku (by omega) (fun _ j hj e he => ?_) ?_
  · obtain ⟨g1, g2⟩ := hpos e.1 (hmem j e he)
    rw [(hu _ g1 g2).1]
    exact ⟨g1, g2⟩
  · obtain ⟨j, hj, e, he, hb⟩ := hbad
    obtain ⟨g1, g2⟩ := hpos e.1 (hmem j e he)
    refine ⟨j, hj, e, he, ?_⟩
    rw [(hu _ g1 g2).1, (hu _ g1 g2).2, List.length_replicate]
    exact Nat.mul_le_mul_right _ (by omega)

/-- The same for `vecdot(x, y, axis=0)` with a `COO` object: a column at or past the number of
columns whose factor is not zero; every run. -/
theorem py_vecdot_coo_ub (dbg : Bool) (nthreads : Nat) {r c : Nat} {row col : List Int} {data : List V} (hc0 : c ≠ 0)
    (hr : r ≤ usizeMax) (hc : 8 * (c : Int) ≤ i64Max) (hrl : row.length = data.length) (hcl : col.length = data.length)
    (hd : 24 * (data.length : Int) ≤ i64Max) (hri : ∀ i ∈ row, 0 ≤ i ∧ i < r) (hci : ∀ j ∈ col, 0 ≤ j)
    (hi : (⟨r, c, row, col, data⟩ : Coo V).I64) {y : DenseNd V} (hs : y.shape = [r]) (hy : y.Ok)
    (hbad : ∃ t ∈ (⟨r, c, row, col, data⟩ : Coo V).triples, (c : Int) ≤ t.1.2 ∧ (y.data.getD t.1.1.toNat 0 == 0) = false) :
    ∃ x, PySp.new .coo r c row col data true = .ok x ∧ x.operand = .error .runtimeError ∧
      ∀ out, PyVecdot dbg nthreads (some 0) x y out ↔ out = .ub := by
  have hw : ¬ (⟨r, c, row, col, data⟩ : Coo V).WF := by
    intro w
    obtain ⟨e, he, hb, -⟩ := hbad
    have hz' := List.of_mem_zip (List.of_mem_zip he).1
    exact absurd (w.col_bounds _ hz'.2).2 (by simpa using hb)
  obtain ⟨x, h1, h2, h3, h4, h5⟩ := py_coo_new_unvalidated hr
    (by unfold i64Max at hc; unfold usizeMax; omega) hrl hcl hw
  refine ⟨x, h1, h5, fun out => ?_⟩
  unfold PyVecdot
  rw [hs]
  dsimp only
  rw [if_neg (by simp), if_pos rfl, if_neg (by rw [h2]; simp), h4]
  dsimp only
  have key : ∀ o : Except Fault (List V), Settles (fun N => VecdotOut dbg nthreads N (.coo ⟨r, c, row, col, data⟩) y.data) o ↔
      o = .error .ub := fun o => settles_iff (3 * data.length + 1024) fun N hN o =>
    vecdot_coo_ub (a := ⟨r, c, row, col, data⟩) hrl hcl hri hci hi (by rw [hy.1, hs]; simp) hc hd hN hc0 hbad o
  simp only [key, exists_eq_left]
  rfl

end

/-! ### `COOND` -/

theorem shapeUsize_of (shape : List Nat) : shapeUsize (shape.map Int.ofNat) = .ok shape := by
  unfold shapeUsize
  rw [if_pos (by intro s hs; obtain ⟨n, -, rfl⟩ := List.mem_map.1 hs; exact Int.natCast_nonneg n), List.map_map]
  congr 1
  induction shape with
  | nil => rfl
  | cons d l ih => simpa using ih

/-- The arrays of a `COOND` object reach the native function unchanged as long as their lengths fit
together: nothing else is ever validated. -/
theorem pyNd_parts {a : CooNd V} (hs : a.shape ≠ []) (hl : a.indices.length = a.data.length * a.shape.length)
    (hu : a.data.length * a.shape.length ≤ usizeMax) : (PyNd.of a).parts = .ok a := by
  unfold PyNd.parts
  rw [show (PyNd.of a).shape = a.shape.map Int.ofNat from rfl, shapeUsize_of]
  show (CooNd.fromParts a.shape a.indices a.data false).mapError _ = _
  unfold CooNd.fromParts
  have hd : (a.data.isEmpty && !a.indices.isEmpty) = false := by
    cases hda : a.data with
    | nil => rw [hda] at hl; simp [List.eq_nil_of_length_eq_zero (by simpa using hl)]
    | cons v l => rfl
  rw [if_neg (by simpa using hs), hd, checkedMul_eq hu]
  simp only []
  rw [if_neg (by simp), if_neg (by simpa using hl)]
  rfl

/-- `COOND(shape, indices, data)` accepts any coordinates. -/
theorem pyNd_new_any {a : CooNd V} (hs : a.shape ≠ []) (hl : a.indices.length = a.data.length * a.shape.length) :
    PyNd.new (a.shape.map Int.ofNat) a.indices a.data = .ok (PyNd.of a) := by
  have := List.length_pos_iff.2 hs
  unfold PyNd.new
  rw [if_neg (by simp; omega), if_neg (by rw [hl, List.length_map]; simp)]
  rfl

theorem pyIndex_nat {α : Type} (t : List α) (i : Nat) (h : i < t.length) : pyIndex t (i : Int) = .ok t[i] := by
  unfold pyIndex
  rw [if_neg (by omega)]
  simp only [Int.toNat_natCast, List.getElem?_eq_getElem h]
  rw [if_pos (by omega)]

theorem pyNd_wrap {r : CooNd V} (hs : r.shape ≠ []) (hl : r.indices.length = r.data.length * r.shape.length)
    (hd : ∀ d ∈ r.shape, (d : Int) ≤ i64Max) : PyNd.wrap r = .ret (PyNd.of r) := by
  unfold PyNd.wrap
  rw [if_pos hd, pyNd_new_any hs hl]
  rfl

theorem restAxes_single_length {n axis : Nat} (h : axis < n) : (restAxes n [axis]).length + 1 = n := by
  have e : restAxes n [axis] = (List.range n).erase axis := by
    rw [List.nodup_range.erase_eq_filter]
    unfold restAxes
    apply List.filter_congr
    intro d _
    by_cases hd : d = axis <;> simp [hd]
  rw [e, List.length_erase_of_mem (by simpa using h), List.length_range]
  omega

theorem axesNd_of {ndim axis : Nat} {axes : AxesArg} (h : NdAxis ndim axes axis) : axesNd ndim axes = .ok (axis : Int) := by
  rcases h with ⟨rfl, h⟩ | ⟨ps, qs, rfl⟩
  · unfold axesNd
    simp
    omega
  · rfl

section
variable [Zero V] [Add V] [Mul V] [BEq V]

theorem tensordotNd_reaches {dbg : Bool} {sort : List (Nat × V) → List (Nat × V)} {axes : AxesArg} {a : CooNd V} {axis : Nat}
    (hs : a.shape ≠ []) (hl : a.indices.length = a.data.length * a.shape.length)
    (hu : a.data.length * a.shape.length ≤ usizeMax) (hax : axis < a.shape.length) (h : NdAxis a.shape.length axes axis)
    {y : DenseNd V} {rest : List Nat} (hy : y.shape = a.shape.getD axis 0 :: rest) (out : PyRes (PyNd V)) :
    PyTensordotNd dbg sort axes (PyNd.of a) y out ↔
      ∃ o, Settles (fun N o => o = tensordotNdP dbg N sort a axis y.data y.shape) o ∧
        out = (PyRes.ofKernel o).bind PyNd.wrap := by
  have hlen : (PyNd.of a).shape.length = a.shape.length := by simp [PyNd.of]
  have e2 : pyIndex y.shape 0 = .ok (a.shape.getD axis 0) := by
    rw [hy]; exact pyIndex_nat _ 0 (by simp)
  have e3 : pyIndex (PyNd.of a).shape (axis : Int) = .ok ((a.shape.getD axis 0 : Nat) : Int) := by
    rw [pyIndex_nat _ axis (by rw [hlen]; exact hax)]
    simp [PyNd.of, hax]
  have e4 : axisUsize (axis : Int) = .ok axis := by
    unfold axisUsize; rw [if_pos (by omega)]; rfl
  unfold PyTensordotNd
  rw [hlen, axesNd_of h]
  simp only [bind, Except.bind, e2, e3, pyNd_parts hs hl hu, e4, pure, Except.pure]
  rw [if_neg (by simp)]

theorem vecdotNd_reaches {dbg : Bool} {sort : List (Nat × V) → List (Nat × V)} {ax : Option Int} {a : CooNd V} {axis : Nat}
    (hs : a.shape ≠ []) (hl : a.indices.length = a.data.length * a.shape.length)
    (hu : a.data.length * a.shape.length ≤ usizeMax) (hax : axis < a.shape.length)
    (h : ((ax = none ∨ ax = some (-1)) ∧ axis + 1 = a.shape.length) ∨ ax = some (axis : Int))
    {y : DenseNd V} (hy : y.shape = [a.shape.getD axis 0]) (out : PyRes (PyNd V)) :
    PyVecdotNd dbg sort ax (PyNd.of a) y out ↔
      ∃ o, Settles (fun N o => o = spmvNdP dbg N sort a axis y.data) o ∧
        out = (PyRes.ofKernel o).bind PyNd.wrap := by
  have hlen : (PyNd.of a).shape.length = a.shape.length := by simp [PyNd.of]
  have e3 : pyIndex (PyNd.of a).shape (axis : Int) = .ok ((a.shape.getD axis 0 : Nat) : Int) := by
    rw [pyIndex_nat _ axis (by rw [hlen]; exact hax)]
    simp [PyNd.of, hax]
  have e4 : axisUsize (axis : Int) = .ok axis := by
    unfold axisUsize; rw [if_pos (by omega)]; rfl
  have e1 : (if ax = none ∨ ax = some (-1) then (a.shape.length : Int) - 1 else ax.getD 0) = (axis : Int) := by
    rcases h with ⟨h, e⟩ | rfl
    · rw [if_pos h]; omega
    · rw [if_neg (by simp)]; rfl
  unfold PyVecdotNd
  rw [hy]
  simp only [hlen, e1, bind, Except.bind, e3, pyNd_parts hs hl hu, e4, pure, Except.pure]
  rw [if_neg (by simp)]

/-- Valid contents: no undefined behaviour, any arithmetic, any `axes` and any dense operand. -/
theorem py_linalg_nd_no_ub {dbg : Bool} (sort : List (Nat × V) → List (Nat × V)) {a : CooNd V} (ha : a.WF)
    (hu : a.data.length * a.shape.length ≤ usizeMax) (y : DenseNd V) (out : PyRes (PyNd V)) :
    (∀ axes, PyTensordotNd dbg sort axes (PyNd.of a) y out → out ≠ .ub) ∧
    (∀ axis, PyVecdotNd dbg sort axis (PyNd.of a) y out → out ≠ .ub) := by
  have hc : CooNd.fromParts a.shape a.indices a.data true = .ok a := (coond_fromParts_iff _ _ _ _).2 ⟨hu, rfl, ha⟩
  have hp := pyNd_parts ha.rank ha.length hu
  refine ⟨fun axes h => ?_, fun axis h => ?_⟩
  · unfold PyTensordotNd at h
    split at h
    · rw [h]; simp
    · rename_i a' ax' heq
      have ea : a' = a := by
        revert heq
        rw [hp]
        cases axesNd (PyNd.of a).shape.length axes with
        | error e => intro h; cases h
        | ok i =>
        cases pyIndex y.shape 0 with
        | error e => intro h; cases h
        | ok d =>
        cases h3 : pyIndex (PyNd.of a).shape i with
        | error e => simp only [bind, Except.bind, h3]; intro h; cases h
        | ok s =>
        simp only [bind, Except.bind, h3]
        split
        · intro h; cases h
        · cases axisUsize i with
          | error e => intro h; cases h
          | ok j => intro h; simp only [pure, Except.pure, Except.ok.injEq, Prod.mk.injEq] at h; exact h.1.symm
      subst ea
      obtain ⟨o, ho, rfl⟩ := h
      refine PyRes.bind_ne_ub (PyRes.ofKernel_ne_ub ?_) wrapNd_ne_ub
      refine settles_ne ((y.shape.drop 1).prod + 1) (fun N hN o ho => ?_) ho
      rw [ho]
      exact py_tensordot_nd_safe dbg sort hc _ _ (by omega)
  · unfold PyVecdotNd at h
    split at h
    · split at h
      · rw [h]; simp
      · obtain ⟨o, ho, rfl⟩ := h
        refine PyRes.bind_ne_ub (PyRes.ofKernel_ne_ub ?_) wrapNd_ne_ub
        refine settles_ne 0 (fun N hN o ho => ?_) ho
        rw [ho]
        exact spmv_nd_no_ub _ _ _ _ _ _
    · rw [h]; simp

/-- `vecdot` of a one-dimensional `COOND` object (a plain inner product) panics for every vector of
the right length. -/
theorem py_vecdot_nd_one_axis (dbg : Bool) (sort : List (Nat × V) → List (Nat × V)) {a : CooNd V} {n : Nat} (hs : a.shape = [n])
    (hl : a.indices.length = a.data.length) (hu : a.data.length ≤ usizeMax) {axis : Option Int}
    (hax : axis = none ∨ axis = some (-1) ∨ axis = some 0) {y : DenseNd V} (hy : y.shape = [n]) (out : PyRes (PyNd V)) :
    PyVecdotNd dbg sort axis (PyNd.of a) y out ↔ out = .raises .panic := by
  rw [vecdotNd_reaches (axis := 0) (by rw [hs]; simp) (by rw [hs, hl]; simp) (by rw [hs]; simpa using hu) (by rw [hs]; simp)
    (by rcases hax with h | h | h
        · exact .inl ⟨.inl h, by rw [hs]; rfl⟩
        · exact .inl ⟨.inr h, by rw [hs]; rfl⟩
        · exact .inr h) (by rw [hy, hs]; rfl)]
  have key : ∀ o, Settles (fun N o => o = spmvNdP dbg N sort a 0 y.data) o ↔ o = .error .panic := fun o =>
    settles_iff 0 fun N _ o => by
      rw [spmv_nd_ptr_rejects dbg N sort a 0 y.data (.inr (.inr (by rw [hs]; simp)))]
  simp only [key, exists_eq_left]
  rfl

/-- A negative axis never gives a result in `tensordot` (NumPy counts it from the end), whatever the
operands. -/
theorem py_tensordot_nd_negative (dbg : Bool) (sort : List (Nat × V) → List (Nat × V)) {p : Int} (hp : p < 0) (ps qs : List Int)
    (x : PyNd V) (y : DenseNd V) {out : PyRes (PyNd V)} (h : PyTensordotNd dbg sort (.pair (p :: ps) (0 :: qs)) x y out) :
    out = .raises .valueError ∨ out = .raises .indexError := by
  unfold PyTensordotNd at h
  rw [show axesNd x.shape.length (.pair (p :: ps) (0 :: qs)) = .ok p from rfl] at h
  have hpi : ∀ {α : Type} (t : List α) (i : Int) e, pyIndex t i = .error e → e = .indexError := by
    intro α t i e he
    unfold pyIndex at he
    split at he
    · split at he
      · cases he
      · cases he; rfl
    · cases he; rfl
  have hpa : ∀ e, x.parts = .error e → e = .valueError := by
    intro e he
    unfold PyNd.parts shapeUsize at he
    split at he
    · simp only [bind, Except.bind] at he
      revert he
      cases CooNd.fromParts (x.shape.map Int.toNat) x.indices x.data false with
      | error m => intro he; cases he; rfl
      | ok m => intro he; cases he
    · cases he; rfl
  have hau : axisUsize p = .error .valueError := by unfold axisUsize; rw [if_neg (by omega)]
  simp only [bind, Except.bind] at h
  cases h1 : pyIndex y.shape 0 with
  | error e => rw [h1] at h; exact .inr (by rw [← hpi _ _ _ h1]; exact h)
  | ok d =>
  cases h2 : pyIndex x.shape p with
  | error e => rw [h1, h2] at h; exact .inr (by rw [← hpi _ _ _ h2]; exact h)
  | ok s =>
  rw [h1, h2] at h
  simp only [] at h
  by_cases hd : (d : Int) = s
  · rw [if_neg (by simpa using hd)] at h
    cases h3 : x.parts with
    | error e => rw [h3] at h; exact .inl (by rw [← hpa _ h3]; exact h)
    | ok a => rw [h3, hau] at h; exact .inl h
  · rw [if_pos hd] at h
    exact .inl h

/-- Disagreement: the constructor of `COOND` accepts a first coordinate outside the shape, `check` or
not, and `tensordot` along that axis reads the dense operand outside; every run, both builds. -/
theorem py_tensordot_nd_ub {dbg : Bool} (sort : List (Nat × V) → List (Nat × V)) {axes : AxesArg}
    {a : CooNd V} {axis : Nat} (hl : a.indices.length = a.data.length * a.shape.length)
    (hu : a.data.length * a.shape.length ≤ usizeMax) (hax : axis < a.shape.length) (hnd : NdAxis a.shape.length axes axis)
    {y : DenseNd V} {rest : List Nat} (hy : y.shape = a.shape.getD axis 0 :: rest) (hyo : y.Ok) (hk : 0 < rest.prod)
    (hku : rest.prod ≤ usizeMax) (hn : 0 < a.data.length) (hcap : 16 * ((a.data.length * min rest.prod 8 : Nat) : Int) ≤ i64Max)
    (hi : a.I64) (hno : NoOverflow ((restAxes a.shape.length [axis]).map (fun d => a.shape.getD d 0) ++ [rest.prod]))
    (h0 : ∀ i ∈ a.indices, 0 ≤ i) {p : Int} (hx : a.indices[axis]? = some p)
    (hrest : ∀ d < a.shape.length, d ≠ axis → ∃ i, a.indices[d]? = some i ∧ i < a.shape.getD d 0)
    (hge : (a.shape.getD axis 0 : Int) ≤ p) (hfit : p * rest.prod ≤ usizeMax) :
    PyNd.new (a.shape.map Int.ofNat) a.indices a.data = .ok (PyNd.of a) ∧
    ∀ out, PyTensordotNd dbg sort axes (PyNd.of a) y out ↔ out = .ub := by
  have hs : a.shape ≠ [] := by intro h; rw [h] at hax; simp at hax
  refine ⟨pyNd_new_any hs hl, fun out => ?_⟩
  rw [tensordotNd_reaches hs hl hu hax hnd hy]
  have hyl : y.data.length = a.shape.getD axis 0 * rest.prod := by rw [hyo.1, hy, List.prod_cons]
  have hlr : a.shape.length ≤ usizeMax := le_trans (Nat.le_mul_of_pos_left _ hn) hu
  have key : ∀ o, Settles (fun N o => o = tensordotNdP dbg N sort a axis y.data y.shape) o ↔ o = .error .ub := fun o =>
    settles_iff 1 fun N hN o => by
      unfold tensordotNdP
      rw [decide_eq_true hax, hy, tensordotCols_eq hk hku (by rw [← hyl]; exact bytes_usize hyo.2) hyl]
      simp only [assertP, if_true, expectP, ok_bind]
      rw [spmm_nd_ub sort hax hk (by omega) hn hcap hyl hi hno hlr h0 hx hrest hge hfit]
  simp only [key, exists_eq_left]
  rfl

end

section
variable [Semiring V] [BEq V] [LawfulBEq V]

/-- `tensordot` of a valid `COOND` object: one possible outcome.  The result is canonical; its last
axis is all the remaining axes of `y` flattened into one. -/
theorem py_tensordot_nd_correct {dbg : Bool} {sort : List (Nat × V) → List (Nat × V)} (hsort : IsSort sort) {axes : AxesArg}
    {a : CooNd V} (ha : a.WF) (hai : a.I64) {axis : Nat} (hax : axis < a.shape.length) (hnd : NdAxis a.shape.length axes axis)
    {y : DenseNd V} {rest : List Nat} (hy : y.shape = a.shape.getD axis 0 :: rest) (hyo : y.Ok) (hpos : 0 < rest.prod)
    (hr : (rest.prod : Int) ≤ i64Max) (hd : ∀ d ∈ a.shape, (d : Int) ≤ i64Max)
    (hno : NoOverflow ((restAxes a.shape.length [axis]).map (fun d => a.shape.getD d 0) ++ [rest.prod]))
    (hmap : 24 * ((a.data.length * rest.prod : Nat) : Int) ≤ i64Max)
    (hidx : 8 * ((a.indices.length * rest.prod : Nat) : Int) ≤ i64Max) :
    ∃ r : CooNd V, (∀ out, PyTensordotNd dbg sort axes (PyNd.of a) y out ↔ out = .ret (PyNd.of r)) ∧
      r.shape = (restAxes a.shape.length [axis]).map (fun d => a.shape.getD d 0) ++ [rest.prod] ∧
      r.WF ∧ r.Sorted ∧ r.NoZeros ∧
      ∀ u z, InBounds rest z → r.val (u ++ [(rowMajor rest z : Int)]) =
        (((indicesOf a.shape).filter fun x => select (restAxes a.shape.length [axis]) x == u).map fun x =>
          a.val x * y.data.getD (rowMajor (a.shape.getD axis 0 :: rest) (x.getD axis 0 :: z)) 0).sum := by
  have hyl : y.data.length = a.shape.getD axis 0 * rest.prod := by rw [hyo.1, hy, List.prod_cons]
  have hm : a.shape.getD axis 0 * rest.prod ≤ usizeMax := by rw [← hyl]; exact bytes_usize hyo.2
  have hu : a.data.length * a.shape.length ≤ usizeMax := by
    rw [← ha.length]
    refine le_trans (Nat.le_mul_of_pos_right _ hpos) (bytes_usize hidx)
  have hall : ∀ N, 3 * (a.data.length * rest.prod) + 16 ≤ N → _ := fun N hN =>
    tensordot_nd_ptr_correct (dbg := dbg) hsort ha hai hax hpos (by omega) hyl hm hno hmap hidx hN
  obtain ⟨r, e, hsh, hw, hso, hnz, hval⟩ := hall _ (le_refl _)
  refine ⟨r, fun out => ?_, hsh, hw, hso, hnz, hval⟩
  rw [tensordotNd_reaches ha.rank ha.length hu hax hnd hy]
  have huni : ∀ N, 3 * (a.data.length * rest.prod) + 16 ≤ N →
      tensordotNdP dbg N sort a axis y.data (a.shape.getD axis 0 :: rest) = .ok r := by
    intro N hN
    have hr' : rest.prod ≤ usizeMax := by
      have := hno [rest.prod] (List.suffix_append _ _)
      simpa using this
    have hc := tensordotCols_eq hpos hr' hm hyl
    obtain ⟨r1, f1, f2⟩ := spmm_nd_ptr (dbg := dbg) hsort ha hai hax hpos hyl hm (by omega) hno hmap hidx hN
    obtain ⟨r2, f3, f4⟩ := spmm_nd_ptr (dbg := dbg) hsort ha hai hax hpos hyl hm (by omega) hno hmap hidx (le_refl _)
    unfold tensordotNdP at e ⊢
    rw [decide_eq_true hax, hc] at e ⊢
    simp only [assertP, if_true, expectP, ok_bind] at e ⊢
    rw [f2] at f4
    rw [f3, ← Option.some.inj f4] at e
    rw [f1, e]
  have key : ∀ o, Settles (fun N o => o = tensordotNdP dbg N sort a axis y.data y.shape) o ↔ o = .ok r := fun o =>
    settles_iff _ fun N hN o => by rw [hy, huni N hN]
  simp only [key, exists_eq_left]
  show out = PyNd.wrap r ↔ _
  rw [pyNd_wrap hw.rank hw.length]
  intro d hd'
  rw [hsh, List.mem_append] at hd'
  rcases hd' with h | h
  · obtain ⟨k, hk, rfl⟩ := List.mem_map.1 h
    have : k < a.shape.length := by simpa using (List.mem_filter.1 hk).1
    rw [List.getD_eq_getElem _ _ this]
    exact hd _ (List.getElem_mem _)
  · rw [List.mem_singleton.1 h]; exact hr

/-- Disagreement: the result always has as many axes as `x`, whatever the number of axes of `y`;
`tensordot` is documented to return `x.ndim - 1 + y.ndim - 1` axes.  The two agree only for a
two-dimensional `y`. -/
theorem py_tensordot_nd_rank {dbg : Bool} {sort : List (Nat × V) → List (Nat × V)} (hsort : IsSort sort) {axes : AxesArg}
    {a : CooNd V} (ha : a.WF) (hai : a.I64) {axis : Nat} (hax : axis < a.shape.length) (hnd : NdAxis a.shape.length axes axis)
    {y : DenseNd V} {rest : List Nat} (hy : y.shape = a.shape.getD axis 0 :: rest) (hyo : y.Ok) (hpos : 0 < rest.prod)
    (hr : (rest.prod : Int) ≤ i64Max) (hd : ∀ d ∈ a.shape, (d : Int) ≤ i64Max)
    (hno : NoOverflow ((restAxes a.shape.length [axis]).map (fun d => a.shape.getD d 0) ++ [rest.prod]))
    (hmap : 24 * ((a.data.length * rest.prod : Nat) : Int) ≤ i64Max)
    (hidx : 8 * ((a.indices.length * rest.prod : Nat) : Int) ≤ i64Max) {r : PyNd V}
    (h : PyTensordotNd dbg sort axes (PyNd.of a) y (.ret r)) :
    r.shape.length = a.shape.length ∧ (r.shape.length = (a.shape.length - 1) + (y.shape.length - 1) ↔ y.shape.length = 2) := by
  obtain ⟨r', h1, h2, -⟩ := py_tensordot_nd_correct (dbg := dbg) hsort ha hai hax hnd hy hyo hpos hr hd hno hmap hidx
  have e := (h1 _).1 h
  cases e
  have hrl : (restAxes a.shape.length [axis]).length + 1 = a.shape.length := restAxes_single_length hax
  have e2 : (PyNd.of r').shape.length = a.shape.length := by
    show (r'.shape.map Int.ofNat).length = _
    rw [List.length_map, h2, List.length_append, List.length_map]
    simpa using hrl
  refine ⟨e2, ?_⟩
  rw [e2, hy, List.length_cons]
  omega

/-- `vecdot` of a valid `COOND` object with at least two axes: one possible outcome. -/
theorem py_vecdot_nd_correct {dbg : Bool} {sort : List (Nat × V) → List (Nat × V)} (hsort : IsSort sort) {ax : Option Int}
    {a : CooNd V} (ha : a.WF) (hai : a.I64) {axis : Nat} (hax : axis < a.shape.length) (hrest : 1 < a.shape.length)
    (hnd : ((ax = none ∨ ax = some (-1)) ∧ axis + 1 = a.shape.length) ∨ ax = some (axis : Int))
    {y : DenseNd V} (hy : y.shape = [a.shape.getD axis 0]) (hyo : y.Ok) (hd : ∀ d ∈ a.shape, (d : Int) ≤ i64Max)
    (hno : NoOverflow ((restAxes a.shape.length [axis]).map fun d => a.shape.getD d 0))
    (hmap : 24 * (a.data.length : Int) ≤ i64Max) (hidx : 8 * (a.indices.length : Int) ≤ i64Max) :
    ∃ r : CooNd V, (∀ out, PyVecdotNd dbg sort ax (PyNd.of a) y out ↔ out = .ret (PyNd.of r)) ∧
      r.shape = (restAxes a.shape.length [axis]).map (fun d => a.shape.getD d 0) ∧ r.WF ∧ r.Sorted ∧
      ∀ u, r.val u =
        (((indicesOf a.shape).filter fun z => select (restAxes a.shape.length [axis]) z == u).map
          fun z => a.val z * y.data.getD (z.getD axis 0).toNat 0).sum := by
  have hyl : y.data.length = a.shape.getD axis 0 := by rw [hyo.1, hy]; simp
  have hu : a.data.length * a.shape.length ≤ usizeMax := by rw [← ha.length]; exact bytes_usize hidx
  obtain ⟨r, e, hsh, hw, hso, hval⟩ := spmv_nd_ptr_correct (dbg := dbg) hsort ha hai hax hyl hrest hno hmap hidx (le_refl _)
  refine ⟨r, fun out => ?_, hsh, hw, hso, hval⟩
  rw [vecdotNd_reaches ha.rank ha.length hu hax hnd hy]
  have huni : ∀ N, 3 * a.data.length + 16 ≤ N → spmvNdP dbg N sort a axis y.data = .ok r := by
    intro N hN
    obtain ⟨r1, f1, f2⟩ := spmv_nd_ptr (dbg := dbg) hsort ha hai hax hyl hrest hno hmap hidx hN
    obtain ⟨r2, f3, f4⟩ := spmv_nd_ptr (dbg := dbg) hsort ha hai hax hyl hrest hno hmap hidx (le_refl _)
    rw [f2] at f4
    rw [f3, ← Option.some.inj f4] at e
    rw [f1, e]
  have key : ∀ o, Settles (fun N o => o = spmvNdP dbg N sort a axis y.data) o ↔ o = .ok r := fun o =>
    settles_iff _ fun N hN o => by rw [huni N hN]
  simp only [key, exists_eq_left]
  show out = PyNd.wrap r ↔ _
  rw [pyNd_wrap hw.rank hw.length]
  intro d hd'
  rw [hsh] at hd'
  obtain ⟨k, hk, rfl⟩ := List.mem_map.1 hd'
  have : k < a.shape.length := by simpa using (List.mem_filter.1 hk).1
  rw [List.getD_eq_getElem _ _ this]
  exact hd _ (List.getElem_mem _)

end

/-! ### Examples -/

attribute [local instance] intFma intIdealFma

/-- `CSR([0,2,3], [0,2,1], [5,6,7], shape=(2, 3)) @ [1, 2, 3]`. -/
example (dbg : Bool) (nthreads : Nat) : ∃ x, PySp.new .csr 2 3 [0, 2, 3] [0, 2, 1] [(5 : Int), 6, 7] true = .ok x ∧
    ∀ out, PyMatmul dbg nthreads x ⟨[3], [1, 2, 3]⟩ out ↔ out = .ret ⟨[2], [23, 14]⟩ := by
  have hn : nativeOf .csr 2 3 [0, 2, 3] [0, 2, 1] [(5 : Int), 6, 7] true = .ok (.csr exA) := rfl
  obtain ⟨x, h1, h2, h3, -⟩ := py_new_valid (by decide) (by decide) hn true
  refine ⟨x, h1, fun out => ?_⟩
  rw [py_matmul_vec_correct h2 h3 ⟨by decide, by decide, by decide⟩ rfl ⟨rfl, by decide⟩]
  exact Iff.rfl

/-- The three classes, `tensordot` with a `(2, 2, 1)` operand, the second pair of axes ignored. -/
example (dbg : Bool) (nthreads : Nat) : ∃ x, PySp.new .coo 2 2 [1, 0, 0, 1] [1, 0, 1, 0] [(5 : Int), 2, 3, 4] true = .ok x ∧
    ∃ r, IsTensordot 2 2 [2, 1] exFullCoo.val [1, 2, 3, 4] r ∧
      ∀ out, PyTensordot dbg nthreads (.pair [1, 0] [0, 1]) x ⟨[2, 2, 1], [1, 2, 3, 4]⟩ out ↔ out = .ret ⟨[2, 2, 1], r⟩ := by
  have hn : nativeOf .coo 2 2 [1, 0, 0, 1] [1, 0, 1, 0] [(5 : Int), 2, 3, 4] true = .ok (.coo exFullCoo) := rfl
  obtain ⟨x, h1, h2, h3, -⟩ := py_new_valid (by decide) (by decide) hn true
  refine ⟨x, h1, ?_⟩
  exact py_tensordot_correct h2 h3 ⟨by decide, by decide, by decide⟩ rfl (y := ⟨[2, 2, 1], [1, 2, 3, 4]⟩) (rest := [2, 1]) rfl
    (by simp) (by decide) ⟨rfl, by decide⟩ (by decide) (by decide)

example (dbg : Bool) (nthreads : Nat) : ∃ x, PySp.new .csc 3 2 [0, 2, 3] [0, 2, 1] [(5 : Int), 6, 7] true = .ok x ∧
    (∀ out, PyVecdot dbg nthreads (some 0) x ⟨[3], [1, 10, 100]⟩ out ↔ out = .ret ⟨[2], [605, 70]⟩) ∧
    (∃ r, ∀ out, PyMatmul dbg nthreads x ⟨[2, 2, 1], [1, 2, 3, 4]⟩ out ↔ out = .ret ⟨[2, 3, 1], r⟩) ∧
    (∀ out, PyTensordot dbg nthreads (.int 2) x ⟨[2], [1, 2]⟩ out ↔ out = .raises .notImplemented) ∧
    (∀ out, PyVecdot dbg nthreads none x ⟨[3], [1, 10, 100]⟩ out ↔ out = .raises .valueError) := by
  have hn : nativeOf .csc 3 2 [0, 2, 3] [0, 2, 1] [(5 : Int), 6, 7] true =
      .ok (.csc ⟨3, 2, [0, 2, 3], [0, 2, 1], [5, 6, 7]⟩) := rfl
  obtain ⟨x, h1, h2, h3, -⟩ := py_new_valid (by decide) (by decide) hn true
  have hf : (Native.csc (⟨3, 2, [0, 2, 3], [0, 2, 1], [5, 6, 7]⟩ : Csc Int)).Fits := ⟨by decide, by decide, by decide⟩
  refine ⟨x, h1, fun out => ?_, ?_, fun out => (py_tensordot_rejects dbg nthreads x _ out).1 2 (by decide), fun out => ?_⟩
  · rw [(py_vecdot_correct h2 h3 hf (y := ⟨[3], [1, 10, 100]⟩) ⟨rfl, by decide⟩ out).2 rfl]
    exact Iff.rfl
  · obtain ⟨r, -, h⟩ := py_matmul_batch_correct (dbg := dbg) (nthreads := nthreads) h2 h3 hf
      (y := ⟨[2, 2, 1], [1, 2, 3, 4]⟩) (batch := [2]) (n := 1) rfl (by simp) (by decide) ⟨rfl, by decide⟩ (by decide)
    exact ⟨r, h⟩
  · refine ((py_vecdot_rejects dbg nthreads x ⟨[3], [1, 10, 100]⟩ out).2.2 3 rfl).1 ?_
    rw [h2.2.1]; decide

/-- `COO([0], [5], [7.0], shape=(1, 2))` with the default `check=True`: `tensordot` with a `(2, 1)` operand and
`vecdot` along axis 0 leave the arrays. -/
example (dbg : Bool) (nthreads : Nat) : ∃ x, PySp.new .coo (1 : Nat) (2 : Nat) [0] [5] [(7 : Int)] true = .ok x ∧
    x.operand = .error .runtimeError ∧ PyTensordot dbg nthreads (.int 1) x ⟨[2, 1], [1, 2]⟩ .ub :=
  py_tensordot_coo_ub dbg nthreads (r := 1) (c := 2) (row := [0]) (col := [5]) (data := [7]) (y := ⟨[2, 1], [1, 2]⟩) (d := 1)
    (rest := []) rfl (by decide) (by decide) (by decide) rfl rfl rfl (by decide) ⟨rfl, by decide⟩
    (by decide) (by decide) (by decide) (by decide)

example (dbg : Bool) (nthreads : Nat) : ∃ x, PySp.new .coo (1 : Nat) (2 : Nat) [0] [5] [(7 : Int)] true = .ok x ∧
    x.operand = .error .runtimeError ∧ ∀ out, PyVecdot dbg nthreads (some 0) x ⟨[1], [1]⟩ out ↔ out = .ub :=
  py_vecdot_coo_ub dbg nthreads (r := 1) (c := 2) (row := [0]) (col := [5]) (data := [7]) (y := ⟨[1], [1]⟩) (by decide) (by decide) (by decide) rfl rfl (by decide) (by decide) (by decide)
    ⟨by decide, by decide⟩ rfl ⟨rfl, by decide⟩ (by decide)

/-- `CSC([0, 1, 1], [7], [3.0], shape=(1, 2))`. -/
example (dbg : Bool) (nthreads : Nat) : ∃ x, PySp.new .csc (1 : Nat) (2 : Nat) [0, 1, 1] [7] [(3 : Int)] true = .ok x ∧
    x.operand = .error .runtimeError ∧ PyTensordot dbg nthreads (.int 1) x ⟨[2, 1], [1, 2]⟩ .ub :=
  py_tensordot_csc_ub (a := ⟨1, 2, [0, 1, 1], [7], [3]⟩) dbg nthreads rfl (by decide) rfl
    ⟨by decide, by decide, by decide, by decide, by decide⟩ ⟨by decide, by decide, by decide, by decide⟩ rfl (by decide)
    ⟨rfl, by decide⟩ (by decide) (by decide) (by decide) ⟨0, by decide, (7, 3), by decide, by decide⟩

/-- No undefined behaviour, and the empty right operand. -/
example (dbg : Bool) (nthreads : Nat) : ∃ x, PySp.new .csr 2 3 [0, 2, 3] [0, 2, 1] [(5 : Int), 6, 7] true = .ok x ∧
    (∀ axes out, PyTensordot dbg nthreads axes x ⟨[3, 2], [1, 2, 3, 4, 5, 6]⟩ out → out ≠ .ub) ∧
    (∀ out, PyTensordot dbg nthreads (.int 1) x ⟨[3, 0], []⟩ out ↔ out = .raises .panic) := by
  have hn : nativeOf .csr 2 3 [0, 2, 3] [0, 2, 1] [(5 : Int), 6, 7] true = .ok (.csr exA) := rfl
  obtain ⟨x, h1, h2, h3, -⟩ := py_new_valid (by decide) (by decide) hn true
  refine ⟨x, h1, fun axes out => ?_, fun out => ?_⟩
  · exact (py_linalg_no_ub h2 h3 ⟨by decide, by decide, by decide⟩ (y := ⟨[3, 2], [1, 2, 3, 4, 5, 6]⟩) ⟨rfl, by decide⟩).1 axes
      (by decide)
  · exact py_tensordot_empty dbg nthreads rfl h2 (d := 0) (rest := []) (by decide) out

/-- `COOND`: axis 1 of a `(2, 3)` array with a `(3, 2)` operand. -/
example (dbg : Bool) : ∃ r : CooNd Int, (∀ out, PyTensordotNd dbg (fun l => l.mergeSort (fun a b => decide (a.1 ≤ b.1)))
      (.int 1) (PyNd.of exN) ⟨[3, 2], [1, 2, 10, 20, 100, 200]⟩ out ↔ out = .ret (PyNd.of r)) ∧
    r.shape = [2, 2] ∧ r.val [0, 0] = 50 ∧ r.val [1, 1] = 1400 := by
  obtain ⟨r, h1, h2, -, -, -, h3⟩ := py_tensordot_nd_correct (dbg := dbg) isSort_mergeSort (axes := .int 1) exN_wf
    (by unfold CooNd.I64; decide) (axis := 1) (by decide) (.inl ⟨rfl, rfl⟩) (y := ⟨[3, 2], [1, 2, 10, 20, 100, 200]⟩)
    (rest := [2]) rfl ⟨rfl, by decide⟩ (by decide) (by decide) (by decide) (noOverflow_of_pos (by decide) (by decide)) (by decide) (by decide)
  exact ⟨r, h1, h2.trans (by decide), (h3 [0] [0] (.cons (by decide) .nil)).trans (by decide), (h3 [1] [1] (.cons (by decide) .nil)).trans (by decide)⟩

example (dbg : Bool) : ∃ r : CooNd Int, (∀ out, PyVecdotNd dbg (fun l => l.mergeSort (fun a b => decide (a.1 ≤ b.1)))
      none (PyNd.of exN) ⟨[3], [1, 10, 100]⟩ out ↔ out = .ret (PyNd.of r)) ∧ r.shape = [2] ∧ r.val [1] = 700 := by
  obtain ⟨r, h1, h2, -, -, h3⟩ := py_vecdot_nd_correct (dbg := dbg) isSort_mergeSort (ax := none) exN_wf
    (by unfold CooNd.I64; decide) (axis := 1) (by decide) (by decide) (.inl ⟨.inl rfl, rfl⟩) (y := ⟨[3], [1, 10, 100]⟩)
    rfl ⟨rfl, by decide⟩ (by decide) (noOverflow_of_pos (by decide) (by decide)) (by decide) (by decide)
  exact ⟨r, h1, h2.trans (by decide), (h3 [1]).trans (by decide)⟩

/-- A `(3, 2, 2)` operand: the result has shape `(2, 4)` instead of `(2, 2, 2)`. -/
example (dbg : Bool) {r : PyNd Int} (h : PyTensordotNd dbg (fun l => l.mergeSort (fun a b => decide (a.1 ≤ b.1)))
    (.int 1) (PyNd.of exN) ⟨[3, 2, 2], [1, 2, 3, 4, 5, 6, 7, 8, 9, 10, 11, 12]⟩ (.ret r)) : r.shape.length = 2 :=
  (py_tensordot_nd_rank (dbg := dbg) isSort_mergeSort exN_wf (by unfold CooNd.I64; decide) (axis := 1) (by decide)
    (.inl ⟨rfl, rfl⟩) (rest := [2, 2]) rfl ⟨rfl, by decide⟩ (by decide) (by decide) (by decide)
    (noOverflow_of_pos (by decide) (by decide)) (by decide) (by decide) h).1

example (dbg : Bool) (sort : List (Nat × Int) → List (Nat × Int)) :
    PyNd.new [3] [3] [(1 : Int)] = .ok (PyNd.of exNdStray) ∧
    ∀ out, PyTensordotNd dbg sort (.int 1) (PyNd.of exNdStray) ⟨[3, 1], [1, 2, 3]⟩ out ↔ out = .ub :=
  py_tensordot_nd_ub sort (a := exNdStray) (axis := 0) (rest := [1]) (by decide) (by decide) (by decide) (.inl ⟨rfl, rfl⟩) rfl ⟨rfl, by decide⟩
    (by decide) (by decide) (by decide) (by decide) (by unfold CooNd.I64; decide) (noOverflow_of_pos (by decide) (by decide)) (by decide)
    (p := 3) rfl (by decide) (by decide) (by decide)

example (dbg : Bool) (sort : List (Nat × Int) → List (Nat × Int)) (out : PyRes (PyNd Int)) :
    PyVecdotNd dbg sort none (PyNd.of ⟨[3], [2], [1]⟩) ⟨[3], [1, 2, 3]⟩ out ↔ out = .raises .panic :=
  py_vecdot_nd_one_axis dbg sort (n := 3) rfl rfl (by decide) (.inl rfl) rfl out

end Lacuna
