import Verif.Model.PyLayout
import Verif.Props.PyLinalg
/-
C93: the memory layout and the dtype of NumPy arrays.  Calls read the elements of a view in logical
order, or raise `TypeError`; which of the two is decided by layout, dtype and the function called.
-/
set_option linter.unusedSectionVars false
set_option linter.unusedSimpArgs false

namespace Lacuna
variable {V : Type}

/-! ### elements of views -/

theorem range_mul_flatMap {α : Type} (d P : Nat) (f : Nat → α) :
    (List.range d).flatMap (fun i => (List.range P).map fun k => f (i * P + k)) = (List.range (d * P)).map f := by
  induction d with
  | zero => simp
  | succ d ih =>
    rw [List.range_succ, List.flatMap_append, ih, Nat.succ_mul, List.range_add, List.map_append, List.map_map]
    simp [Function.comp_def]

theorem viewElems_length (mem : Int → V) : ∀ (ds : List Nat) (ss : List Int) (p : Int), (viewElems mem ds ss p).length = ds.prod
  | [], _, _ => rfl
  | d :: ds, ss, p => by
    simp only [viewElems, List.length_flatMap, viewElems_length mem ds]
    simp

theorem uniform_elems (mem : Int → V) (s : Int) : ∀ (ds : List Nat) (ss : List Int) (p : Int), Uniform s ds ss →
    viewElems mem ds ss p = (List.range ds.prod).map fun (k : Nat) => mem (p + k * s)
  | [], _, p, _ => by simp [viewElems]
  | d :: ds, ss, p, ⟨h1, h2⟩ => by
    simp only [viewElems]
    rw [List.prod_cons, ← range_mul_flatMap]
    refine List.flatMap_congr fun i hi => ?_
    rw [uniform_elems mem s ds ss.tail _ h2]
    refine List.map_congr_left fun k _ => ?_
    rcases h1 with rfl | h1
    · have : i = 0 := by have := List.mem_range.1 hi; omega
      subst this
      simp
    · rw [h1]
      congr 1
      push_cast
      ring

theorem NdView.elems_length (v : NdView V) : v.elems.length = v.shape.prod := viewElems_length ..

theorem toDense_shape (v : NdView V) : v.toDense.shape = v.shape := rfl
theorem toDense_data (v : NdView V) : v.toDense.data = v.elems := rfl

theorem NdView.CContig.slice {v : NdView V} (h : v.CContig) : v.asSlice = .ok v.elems := by
  unfold asSlice
  rw [if_pos (.inl h)]
  rcases h with h | h
  · have := v.elems_length
    rw [h] at this ⊢
    rw [List.length_eq_zero_iff.1 this]
    rfl
  · unfold elems
    rw [uniform_elems _ 1 _ _ _ h]
    simp

theorem NdView.slice_one {v : NdView V} {n : Nat} (hs : v.shape = [n]) (h : ¬ v.CContig) : v.asSlice = .error .typeError := by
  have hf : ¬ v.FContig := by
    intro c
    apply h
    unfold NdView.FContig at c
    unfold NdView.CContig
    rw [hs] at c ⊢
    simpa [Uniform, UniformF] using c
  unfold asSlice
  rw [if_neg (by rintro (c | c); exacts [h c, hf c])]

theorem NdView.slice_one' {v : NdView V} {n : Nat} (hs : v.shape = [n]) :
    v.asSlice = if v.CContig then .ok v.elems else .error .typeError := by
  split
  · rename_i h; exact h.slice
  · rename_i h; exact v.slice_one hs h

theorem map_getD_range (l : List V) (z : V) : (List.range l.length).map (fun k => l[k]?.getD z) = l := by
  apply List.ext_getElem
  · simp
  · intro i h1 h2
    simp [List.getElem?_eq_getElem h2]

theorem NdView.flat_shape (v : NdView V) : v.flat.shape = [v.shape.prod] := by
  unfold flat
  split <;> rfl

/-- `reshape(-1)` keeps the elements. -/
theorem NdView.flat_elems (v : NdView V) : v.flat.elems = v.elems := by
  unfold flat
  split
  · rename_i h
    unfold elems
    rw [uniform_elems _ _ _ _ _ h]
    show viewElems v.mem [v.shape.prod] [lastStride v.shape v.strides] v.start = _
    rw [uniform_elems v.mem (lastStride v.shape v.strides) [v.shape.prod] [lastStride v.shape v.strides] _ ⟨.inr (by simp), trivial⟩]
    simp
  · show viewElems _ [v.shape.prod] [1] 0 = _
    rw [uniform_elems _ 1 [v.shape.prod] [1] _ ⟨.inr (by simp), trivial⟩]
    conv_rhs => rw [← map_getD_range v.elems (v.mem 0)]
    rw [v.elems_length]
    simp

theorem NdView.flat_slice (v : NdView V) : v.flat.asSlice = if v.flat.CContig then .ok v.elems else .error .typeError := by
  rw [slice_one' v.flat_shape, flat_elems]

/-- A row-major array flattens to itself. -/
theorem NdView.CContig.flat {v : NdView V} (h : v.CContig) : v.flat.CContig := by
  rcases h with h | h
  · left; rw [v.flat_shape, h]; rfl
  unfold NdView.flat
  split
  · rename_i hu
    have key : ∀ (ds : List Nat) (ss : List Int), Uniform 1 ds ss → lastStride ds ss = 1 := by
      intro ds
      induction ds with
      | nil => intro ss _; rfl
      | cons d ds ih =>
        rintro ss ⟨h1, h2⟩
        unfold lastStride
        split
        · rename_i c
          simp only [Bool.and_eq_true, List.all_eq_true, beq_iff_eq, bne_iff_ne, ne_eq] at c
          rcases h1 with h1 | h1
          · exact absurd h1 c.2
          · rw [h1, List.prod_eq_one c.1]; rfl
        · exact ih _ h2
    right
    exact ⟨.inr (by rw [key _ _ h]; rfl), trivial⟩
  · right
    exact ⟨.inr rfl, trivial⟩

/-- A new array. -/
def freshStrides : List Nat → List Int
  | [] => []
  | _ :: ds => (ds.prod : Int) :: freshStrides ds

theorem freshStrides_uniform : ∀ ds, Uniform 1 ds (freshStrides ds)
  | [] => trivial
  | _ :: ds => ⟨.inr (by simp [freshStrides]), freshStrides_uniform ds⟩

theorem fresh_elems {shape : List Nat} {ss : List Int} (hu : Uniform 1 shape ss) {l : List V} (h : l.length = shape.prod) (z : V) :
    (NdView.mk shape ss 0 fun i => l[i.toNat]?.getD z).elems = l := by
  show viewElems _ shape ss 0 = l
  rw [uniform_elems _ 1 _ _ _ hu]
  conv_rhs => rw [← map_getD_range l z, h]
  simp

/-- The conversion to `float64` exists. -/
theorem NArr.asFloat_exists (y : NArr V) : ∃ w, y.AsFloat w := by
  unfold AsFloat
  by_cases h : y.f64
  · exact ⟨y.view, by rw [if_pos h]⟩
  · simp only [if_neg h]
    exact ⟨⟨y.view.shape, freshStrides y.view.shape, 0, fun i => y.view.elems[i.toNat]?.getD (y.view.mem 0)⟩, rfl,
      fresh_elems (freshStrides_uniform _) y.view.elems_length _, fun _ _ => .inr (freshStrides_uniform _)⟩

theorem NArr.AsFloat.shape_eq {y : NArr V} {w : NdView V} (h : y.AsFloat w) : w.shape = y.view.shape := by
  unfold AsFloat at h
  split at h
  · rw [h]
  · exact h.1

theorem NArr.AsFloat.elems_eq {y : NArr V} {w : NdView V} (h : y.AsFloat w) : w.elems = y.view.elems := by
  unfold AsFloat at h
  split at h
  · rw [h]
  · exact h.2.1

theorem NArr.AsFloat.contig {y : NArr V} {w : NdView V} (h : y.AsFloat w) {n : Nat} (hs : y.view.shape = [n]) :
    w.CContig ↔ (y.f64 = false ∨ y.view.CContig) := by
  have hsh := h.shape_eq
  unfold AsFloat at h
  by_cases c : y.f64 = true
  · rw [if_pos c] at h
    rw [h]; simp [c]
  · rw [if_neg c] at h
    rw [Bool.not_eq_true] at c
    exact iff_of_true (h.2.2 n (by rw [hsh, hs])) (.inl c)

/-! ### products with dense arrays -/

/-- The object has no native copy only if none can be made. -/
def PySp.HandleOk (x : PySp V) : Prop := x.handle = none → x.cls = .csr → ∃ e, x.parts = .error e

/-- Objects made by the constructors are like that. -/
theorem PySp.new_handleOk {cls : Cls} {nrows ncols : Int} {ix1 ix2 : List Int} {data : List V} {check : Bool} {x : PySp V}
    (h : PySp.new cls nrows ncols ix1 ix2 data check = .ok x) : x.HandleOk := by
  intro hn hc
  cases cls with
  | csr =>
    have hx : x = ⟨.csr, nrows, ncols, ix1, ix2, data, (nativeOf .csr nrows ncols ix1 ix2 data false).toOption⟩ := by
      unfold PySp.new at h
      cases check with
      | false =>
        simp only [Bool.false_eq_true, if_false] at h
        cases h; rfl
      | true =>
        simp only [if_true] at h
        cases hq : nativeOf .csr nrows ncols ix1 ix2 data true with
        | error e => rw [hq] at h; cases h
        | ok a => rw [hq] at h; cases h; rfl
    subst hx
    unfold PySp.parts
    cases hq : nativeOf .csr nrows ncols ix1 ix2 data false with
    | error e => exact ⟨e, rfl⟩
    | ok a => rw [hq] at hn; cases hn
  | csc => cases h; cases hc
  | coo => cases h; cases hc

theorem PySp.sizes_parts (x : PySp V) {e : PyErr} (h : x.sizes = .error e) : x.parts = .error e := by
  unfold PySp.sizes at h
  unfold PySp.parts nativeOf
  cases h1 : pyUsize x.nrows with
  | error e1 => rw [h1] at h; cases h; rfl
  | ok r =>
    rw [h1] at h
    cases h2 : pyUsize x.ncols with
    | error e2 => rw [h2] at h; cases h; rfl
    | ok c => rw [h2] at h; cases h

theorem PySp.gate (x : PySp V) (y : NArr V) (h : y.f64 = true) :
    (do x.sizes; y.extract; x.parts : Except PyErr (Native V)) = x.parts := by
  unfold NArr.extract
  rw [if_pos h]
  cases h1 : x.sizes with
  | error e => rw [x.sizes_parts h1]; rfl
  | ok _ => rfl

theorem PySp.gate_int (x : PySp V) (y : NArr V) (h : y.f64 = false) (hs : x.sizes = .ok ()) :
    (do x.sizes; y.extract; x.parts : Except PyErr (Native V)) = .error .typeError := by
  unfold NArr.extract
  rw [hs, h]
  rfl

section
variable [Zero V] [Add V] [Mul V] [BEq V] [HasFma V] {dbg : Bool} {nthreads : Nat}

theorem matVecL_iff (x : PySp V) (y : NArr V) {n : Nat} (hs : y.view.shape = [n]) (out : PyRes (DenseNd V)) :
    MatVecL dbg nthreads x y out ↔ if y.f64 = false ∨ y.view.CContig then MatVec dbg nthreads x y.view.elems out
      else if (n : Int) ≠ x.ncols then out = .raises .valueError
      else match x.operand with
        | .error e => out = .raises e
        | .ok _ => out = .raises .typeError := by
  have hlen : (y.view.elems.length : Int) = n := by rw [y.view.elems_length, hs]; simp
  have key : ∀ w, y.AsFloat w → ((if ((w.shape.headD 0 : Nat) : Int) ≠ x.ncols then out = .raises .valueError
      else match x.operand with
        | .error e => out = .raises e
        | .ok a => match w.asSlice with
          | .error e => out = .raises e
          | .ok s => ∃ o, Settles (fun N => SpmvOut dbg nthreads N a s) o ∧
              out = (PyRes.ofKernel o).bind fun r => .ret ⟨[r.length], r⟩) ↔
      if y.f64 = false ∨ y.view.CContig then MatVec dbg nthreads x y.view.elems out
      else if (n : Int) ≠ x.ncols then out = .raises .valueError
      else match x.operand with
        | .error e => out = .raises e
        | .ok _ => out = .raises .typeError) := by
    intro w hw
    have e1 : w.shape.headD 0 = n := by rw [hw.shape_eq, hs]; rfl
    rw [e1, NdView.slice_one' (hw.shape_eq.trans hs), hw.elems_eq]
    by_cases c : y.f64 = false ∨ y.view.CContig
    · rw [if_pos ((hw.contig hs).2 c), if_pos c]
      unfold MatVec
      rw [hlen]
      exact Iff.rfl
    · rw [if_neg (fun d => c ((hw.contig hs).1 d)), if_neg c]
  constructor
  · rintro ⟨w, hw, h⟩
    exact (key w hw).1 h
  · intro h
    obtain ⟨w, hw⟩ := y.asFloat_exists
    exact ⟨w, hw, (key w hw).2 h⟩

theorem matVecL_ok (x : PySp V) (y : NArr V) {n : Nat} (hs : y.view.shape = [n]) (h : y.f64 = false ∨ y.view.CContig)
    (out : PyRes (DenseNd V)) : MatVecL dbg nthreads x y out ↔ MatVec dbg nthreads x y.view.elems out := by
  rw [matVecL_iff x y hs, if_pos h]

theorem matVecL_strided (x : PySp V) (y : NArr V) {n : Nat} {a : Native V} (hs : y.view.shape = [n]) (hf : y.f64 = true)
    (hc : ¬ y.view.CContig) (hn : (n : Int) = x.ncols) (ha : x.operand = .ok a) (out : PyRes (DenseNd V)) :
    MatVecL dbg nthreads x y out ↔ out = .raises .typeError := by
  rw [matVecL_iff x y hs, if_neg (by rintro (c | c); exacts [by simp [hf] at c, hc c]), if_neg (by simp [hn]), ha]

theorem matMatL_iff {x : PySp V} (hx : x.HandleOk) (y : NArr V) (m k : Nat) (out : PyRes (DenseNd V)) :
    MatMatL dbg x m k y out ↔ MatMat dbg x m k y.view.elems out := by
  have key : ∀ w, y.AsFloat w → ((if (m : Int) ≠ x.ncols then out = .raises .valueError
      else match x.operand with
        | .error e => out = .raises e
        | .ok a => if m ≠ a.cols then out = .raises .valueError
          else match spmmReads x w with
            | .error e => out = .raises e
            | .ok s => ∃ o, Settles (fun N => SpmmOut dbg N a s k) o ∧
                out = (PyRes.ofKernel o).bind (fromShapeVec a.rows k)) ↔ MatMat dbg x m k y.view.elems out) := by
    intro w hw
    unfold MatMat
    cases ho : x.operand with
    | error e => exact Iff.rfl
    | ok a =>
      have hr : spmmReads x w = .ok y.view.elems := by
        unfold spmmReads
        cases hh : x.handle with
        | some a => rw [← hw.elems_eq]
        | none =>
          exfalso
          unfold PySp.operand at ho
          rw [hh] at ho
          by_cases c : x.cls = .csr
          · obtain ⟨e, he⟩ := hx hh c
            simp only [if_pos c, he] at ho
            cases ho
          · simp only [if_neg c] at ho
            cases ho
      simp only [hr]
  constructor
  · rintro ⟨w, hw, h⟩
    exact (key w hw).1 h
  · intro h
    obtain ⟨w, hw⟩ := y.asFloat_exists
    exact ⟨w, hw, (key w hw).2 h⟩

theorem atMulL_iff {x : PySp V} (hx : x.HandleOk) (y : NArr V) (h : y.f64 = false ∨ y.view.shape.length ≠ 1 ∨ y.view.CContig)
    (out : PyRes (DenseNd V)) : AtMulL dbg nthreads x y out ↔ AtMul dbg nthreads x y.view.toDense out := by
  unfold AtMulL AtMul
  show _ ↔ (match y.view.shape with
    | [_] => MatVec dbg nthreads x y.view.elems out
    | [m, k] => MatMat dbg x m k y.view.elems out
    | _ => out = .raises .valueError)
  match hs : y.view.shape with
  | [] => exact Iff.rfl
  | [n] =>
    simp only
    rw [matVecL_iff x y hs, if_pos]
    rcases h with h | h | h
    · exact .inl h
    · rw [hs] at h; exact absurd rfl h
    · exact .inr h
  | [m, k] => exact matMatL_iff hx y m k out
  | _ :: _ :: _ :: _ => exact Iff.rfl

/-- C93: `matmul` with a view of any layout and dtype is `matmul` with a contiguous `float64` copy, except
for a one-dimensional `float64` view that is not contiguous. -/
theorem matmul_layout {x : PySp V} (hx : x.HandleOk) (y : NArr V) (h : y.f64 = false ∨ y.view.shape.length ≠ 1 ∨ y.view.CContig)
    (out : PyRes (DenseNd V)) : PyMatmulL dbg nthreads x y out ↔ PyMatmul dbg nthreads x y.view.toDense out := by
  unfold PyMatmulL PyMatmul
  show (if y.view.shape.length ≤ 2 then _ else _) ↔ (if y.view.shape.length ≤ 2 then _ else _)
  by_cases c : y.view.shape.length ≤ 2
  · rw [if_pos c, if_pos c]
    exact atMulL_iff hx y h out
  · rw [if_neg c, if_neg c]
    by_cases ck : ((y.view.shape.getD (y.view.shape.length - 2) 0 : Nat) : Int) ≠ x.ncols
    · simp only [toDense_shape]
      rw [if_pos ck]
      exact (iff_of_eq (if_pos ck)).symm
    · simp only [toDense_shape, toDense_data]
      rw [if_neg ck]
      refine Iff.trans ?_ (iff_of_eq (if_neg ck)).symm
      refine exists_congr fun o => and_congr_left fun _ => ?_
      rw [atMulL_iff hx _ (.inr (.inl (by show (2 : Nat) ≠ 1; omega)))]
      have e : (freshMat y.f64 (y.view.shape.getD (y.view.shape.length - 2) 0)
          ((y.view.shape.take (y.view.shape.length - 2)).prod * y.view.shape.getD (y.view.shape.length - 1) 0)
          (swap01 (y.view.shape.take (y.view.shape.length - 2)).prod (y.view.shape.getD (y.view.shape.length - 2) 0)
            (y.view.shape.getD (y.view.shape.length - 1) 0) y.view.elems) (y.view.mem 0)).view.toDense =
          ⟨[y.view.shape.getD (y.view.shape.length - 2) 0,
            (y.view.shape.take (y.view.shape.length - 2)).prod * y.view.shape.getD (y.view.shape.length - 1) 0],
            swap01 (y.view.shape.take (y.view.shape.length - 2)).prod (y.view.shape.getD (y.view.shape.length - 2) 0)
              (y.view.shape.getD (y.view.shape.length - 1) 0) y.view.elems⟩ := by
        unfold NdView.toDense freshMat
        congr 1
        refine fresh_elems (shape := [_, _]) (ss := [_, _]) ⟨.inr ?_, .inr ?_, trivial⟩ ?_ _
        · simp
        · simp
        · rw [swap01_length]; simp
      rw [e]

/-- C93: a one-dimensional `float64` view that is not contiguous - a column of a matrix, `v[::2]`,
`v[::-1]` - raises `TypeError`. -/
theorem matmul_strided_raises {x : PySp V} {y : NArr V} {n : Nat} {a : Native V} (hs : y.view.shape = [n]) (hf : y.f64 = true)
    (hc : ¬ y.view.CContig) (hn : (n : Int) = x.ncols) (ha : x.operand = .ok a) (out : PyRes (DenseNd V)) :
    PyMatmulL dbg nthreads x y out ↔ out = .raises .typeError := by
  unfold PyMatmulL AtMulL
  simp only [hs]
  rw [if_pos (by simp), matVecL_iff x y hs, if_neg (by rintro (c | c); exacts [by simp [hf] at c, hc c]), if_neg (by simp [hn]), ha]

/-- C93: `tensordot` with a view. -/
theorem tensordot_layout {x : PySp V} (axes : AxesArg) (y : NArr V)
    (h1 : y.view.shape.length = 1 → y.f64 = false ∨ y.view.CContig)
    (h2 : 2 ≤ y.view.shape.length → y.f64 = true ∧ y.view.flat.CContig) (out : PyRes (DenseNd V)) :
    PyTensordotL dbg nthreads axes x y out ↔ PyTensordot dbg nthreads axes x y.view.toDense out := by
  unfold PyTensordotL PyTensordot
  cases axes2d axes with
  | error e => exact Iff.rfl
  | ok u =>
  show _ ↔ (match y.view.shape with
    | [] => out = .raises .indexError
    | [d] => if (d : Int) ≠ x.ncols then out = .raises .valueError else MatVec dbg nthreads x y.view.elems out
    | d :: rest =>
      if (d : Int) ≠ x.ncols then out = .raises .valueError
      else match x.parts with
        | .error e => out = .raises e
        | .ok a => if d ≠ a.cols then out = .raises .valueError
          else ∃ o, Settles (fun N => TensordotOut dbg N a y.view.elems (d :: rest)) o ∧
            out = ((PyRes.ofKernel o).bind (fromShapeVec a.rows rest.prod)).bind fun r =>
              .ret ⟨a.rows :: rest, r.data⟩)
  match hs : y.view.shape with
  | [] => exact Iff.rfl
  | [n] =>
    simp only
    rw [matVecL_iff x y hs, if_pos (h1 (by rw [hs]; rfl))]
  | d :: e :: rest =>
    obtain ⟨hf, hc⟩ := h2 (by rw [hs]; simp)
    simp only
    rw [x.gate y hf, y.view.flat_slice, if_pos hc]
    exact Iff.rfl

/-- C93: matrices and larger arrays of another dtype are not converted: `TypeError`. -/
theorem tensordot_int_raises {x : PySp V} {axes : AxesArg} {y : NArr V} {d e : Nat} {rest : List Nat}
    (hax : axes2d axes = .ok ()) (hs : y.view.shape = d :: e :: rest) (hf : y.f64 = false) (hn : (d : Int) = x.ncols)
    (hz : x.sizes = .ok ()) (out : PyRes (DenseNd V)) :
    PyTensordotL dbg nthreads axes x y out ↔ out = .raises .typeError := by
  unfold PyTensordotL
  rw [hax]
  simp only [hs]
  rw [if_neg (by simp [hn]), x.gate_int y hf hz]

theorem nativeOf_cols {cls : Cls} {r c : Int} {ix1 ix2 : List Int} {data : List V} {chk : Bool} {a : Native V}
    (h : nativeOf cls r c ix1 ix2 data chk = .ok a) : pyUsize c = .ok a.cols := by
  unfold nativeOf at h
  cases h1 : pyUsize r with
  | error e => rw [h1] at h; cases h
  | ok r' =>
  rw [h1] at h
  cases h2 : pyUsize c with
  | error e => rw [h2] at h; cases h
  | ok c' =>
  rw [h2] at h
  congr 1
  cases cls with
  | csr =>
    have h : ((Csr.fromParts r' c' ix1 ix2 data chk).mapError fun _ => PyErr.valueError).map .csr = .ok a := h
    unfold Csr.fromParts at h
    cases hk : checkParts r' c' ix1 ix2 data chk with
    | error e => rw [hk] at h; cases h
    | ok _ => rw [hk] at h; cases h; rfl
  | csc =>
    have h : ((Csc.fromParts r' c' ix1 ix2 data chk).mapError fun _ => PyErr.valueError).map .csc = .ok a := h
    unfold Csc.fromParts at h
    cases hk : checkParts c' r' ix1 ix2 data chk with
    | error e => rw [hk] at h; cases h
    | ok _ => rw [hk] at h; cases h; rfl
  | coo =>
    have h : ((Coo.fromParts r' c' ix1 ix2 data chk).mapError fun _ => PyErr.valueError).map .coo = .ok a := h
    unfold Coo.fromParts at h
    split at h
    · cases h
    · cases chk with
      | false => cases h; rfl
      | true =>
        cases hk : checkCooIdx r' c' (ix1.zip ix2) with
        | error e => simp only [hk, if_true] at h; cases h
        | ok _ => simp only [hk, if_true] at h; cases h; rfl

theorem PySp.parts_cols {x : PySp V} {a : Native V} (h : x.parts = .ok a) : (a.cols : Int) = x.ncols := by
  have := nativeOf_cols h
  unfold pyUsize at this
  split at this
  · rename_i c
    have e := Except.ok.inj this
    omega
  · cases this

/-- C93: flattened arrays that are views with gaps - `y[:, :1]` - raise `TypeError`. -/
theorem tensordot_strided_raises {x : PySp V} {axes : AxesArg} {y : NArr V} {d e : Nat} {rest : List Nat} {a : Native V}
    (hax : axes2d axes = .ok ()) (hs : y.view.shape = d :: e :: rest) (hf : y.f64 = true) (hc : ¬ y.view.flat.CContig)
    (hn : (d : Int) = x.ncols) (ha : x.parts = .ok a) (out : PyRes (DenseNd V)) :
    PyTensordotL dbg nthreads axes x y out ↔ out = .raises .typeError := by
  have hd : d = a.cols := by have := PySp.parts_cols ha; omega
  unfold PyTensordotL
  rw [hax]
  simp only [hs]
  rw [if_neg (by simp [hn]), x.gate y hf, ha, y.view.flat_slice, if_neg hc]
  simp only
  rw [if_neg (by simp [hd])]

/-- C93: `vecdot` with a view. -/
theorem vecdot_layout {x : PySp V} (axis : Option Int) (y : NArr V) (hc : y.view.CContig)
    (h0 : axis = some 0 → y.f64 = true) (out : PyRes (DenseNd V)) :
    PyVecdotL dbg nthreads axis x y out ↔ PyVecdot dbg nthreads axis x y.view.toDense out := by
  unfold PyVecdotL PyVecdot
  simp only [toDense_shape, toDense_data]
  match hs : y.view.shape with
  | [] => exact Iff.rfl
  | [n] =>
    simp only
    rw [matVecL_ok x y hs (.inr hc)]
    by_cases c1 : axis = none ∨ axis = some (-1) ∨ axis = some 1
    · rw [if_pos c1, if_pos c1]
    · rw [if_neg c1, if_neg c1]
      by_cases c0 : axis = some 0
      · rw [if_pos c0, if_pos c0, x.gate y (h0 c0), hc.slice]
        exact Iff.rfl
      · rw [if_neg c0, if_neg c0]
  | _ :: _ :: _ => exact Iff.rfl

/-- C93: another dtype is converted along axis 1 and refused along axis 0. -/
theorem vecdot_int {x : PySp V} {axis : Option Int} {y : NArr V} {n : Nat} (hs : y.view.shape = [n]) (hf : y.f64 = false)
    (out : PyRes (DenseNd V)) :
    (axis ≠ some 0 → (PyVecdotL dbg nthreads axis x y out ↔ PyVecdot dbg nthreads axis x y.view.toDense out)) ∧
    (axis = some 0 → (n : Int) = x.nrows → x.sizes = .ok () →
      (PyVecdotL dbg nthreads axis x y out ↔ out = .raises .typeError)) := by
  constructor
  · intro h0
    unfold PyVecdotL PyVecdot
    simp only [toDense_shape, toDense_data, hs]
    rw [matVecL_ok x y hs (.inl hf), if_neg h0, if_neg h0]
  · rintro rfl hn hz
    unfold PyVecdotL
    simp only [hs]
    rw [if_neg (by simp), if_pos trivial, if_neg (by simp [hn]), x.gate_int y hf hz]

/-- C93: vectors with gaps are refused along both axes. -/
theorem vecdot_strided_raises {x : PySp V} {axis : Option Int} {y : NArr V} {n : Nat} {a b : Native V} (hs : y.view.shape = [n])
    (hf : y.f64 = true) (hc : ¬ y.view.CContig) (hax : axis = none ∨ axis = some (-1) ∨ axis = some 1 ∨ axis = some 0)
    (h1 : axis ≠ some 0 → (n : Int) = x.ncols) (h0 : axis = some 0 → (n : Int) = x.nrows)
    (ha : x.operand = .ok a) (hb : x.parts = .ok b) (out : PyRes (DenseNd V)) :
    PyVecdotL dbg nthreads axis x y out ↔ out = .raises .typeError := by
  unfold PyVecdotL
  simp only [hs]
  by_cases c0 : axis = some 0
  · subst c0
    rw [if_neg (by simp), if_pos rfl, if_neg (by simp [h0 rfl]), x.gate y hf, hb, y.view.slice_one hs hc]
  · rw [if_pos (by tauto), if_neg (by simp [h1 c0]), matVecL_strided x y hs hf hc (h1 c0) ha]

/-! ### `COOND` -/

/-- C93: `tensordot` of a `COOND` with a `float64` view whose flattening is contiguous. -/
theorem tensordotNd_layout {sort : List (Nat × V) → List (Nat × V)} {x : PyNd V} (axes : AxesArg) (y : NArr V)
    (hf : y.f64 = true) (hc : y.view.flat.CContig) (out : PyRes (PyNd V)) :
    PyTensordotNdL dbg sort axes x y out ↔ PyTensordotNd dbg sort axes x y.view.toDense out := by
  unfold PyTensordotNdL PyTensordotNd
  simp only [toDense_shape, toDense_data, NArr.extract, hf, if_true, y.view.flat_slice, if_pos hc]
  cases axesNd x.shape.length axes with
  | error e => exact Iff.rfl
  | ok ax =>
  cases hd : pyIndex y.view.shape 0 with
  | error e => simp only [bind, Except.bind, hd]
  | ok d =>
  cases hs : pyIndex x.shape ax with
  | error e => simp only [bind, Except.bind, hd, hs]
  | ok s =>
  by_cases hne : (d : Int) ≠ s
  · simp only [bind, Except.bind, hd, hs, if_pos hne]
  cases hp : x.parts with
  | error e => simp only [bind, Except.bind, hd, hs, if_neg hne, hp, pure, Except.pure]
  | ok a =>
  cases hu : axisUsize ax with
  | error e => simp only [bind, Except.bind, hd, hs, if_neg hne, hp, pure, Except.pure, hu]
  | ok u => simp only [bind, Except.bind, hd, hs, if_neg hne, hp, pure, Except.pure, hu]

/-- C93: `vecdot` of a `COOND` with a contiguous `float64` view. -/
theorem vecdotNd_layout {sort : List (Nat × V) → List (Nat × V)} {x : PyNd V} (axis : Option Int) (y : NArr V)
    (hf : y.f64 = true) (hc : y.view.CContig) (out : PyRes (PyNd V)) :
    PyVecdotNdL dbg sort axis x y out ↔ PyVecdotNd dbg sort axis x y.view.toDense out := by
  unfold PyVecdotNdL PyVecdotNd
  simp only [toDense_shape, toDense_data, NArr.extract, hf, if_true, hc.slice]
  match y.view.shape with
  | [] => exact Iff.rfl
  | [n] =>
    simp only
    cases hs : pyIndex x.shape (if axis = none ∨ axis = some (-1) then (x.shape.length : Int) - 1 else axis.getD 0) with
    | error e => simp only [bind, Except.bind]
    | ok s =>
    by_cases hne : (n : Int) ≠ s
    · simp only [bind, Except.bind, if_pos hne]
    cases hp : x.parts with
    | error e => simp only [bind, Except.bind, if_neg hne, pure, Except.pure]
    | ok a =>
    cases hu : axisUsize (if axis = none ∨ axis = some (-1) then (x.shape.length : Int) - 1 else axis.getD 0) with
    | error e => simp only [bind, Except.bind, if_neg hne, pure, Except.pure]
    | ok u => simp only [bind, Except.bind, if_neg hne, pure, Except.pure]
  | _ :: _ :: _ => exact Iff.rfl

/-- C93: `COOND` converts no dtype. -/
theorem tensordotNd_int_raises {sort : List (Nat × V) → List (Nat × V)} {x : PyNd V} {axes : AxesArg} {y : NArr V} {ax s : Int}
    {d : Nat} {rest : List Nat} (hax : axesNd x.shape.length axes = .ok ax) (hy : y.view.shape = d :: rest)
    (hs : pyIndex x.shape ax = .ok s) (hd : (d : Int) = s) (hf : y.f64 = false) (out : PyRes (PyNd V)) :
    PyTensordotNdL dbg sort axes x y out ↔ out = .raises .typeError := by
  unfold PyTensordotNdL
  have h0 : pyIndex y.view.shape 0 = .ok d := by rw [hy]; simp [pyIndex]; omega
  simp only [hax, h0, NArr.extract, hf, bind, Except.bind, hs, hd, ne_eq, not_true, if_false, pure, Except.pure,
    Bool.false_eq_true]

theorem vecdotNd_int_raises {sort : List (Nat × V) → List (Nat × V)} {x : PyNd V} {axis : Option Int} {y : NArr V} {s : Int}
    {n : Nat} (hy : y.view.shape = [n])
    (hs : pyIndex x.shape (if axis = none ∨ axis = some (-1) then (x.shape.length : Int) - 1 else axis.getD 0) = .ok s)
    (hd : (n : Int) = s) (hf : y.f64 = false) (out : PyRes (PyNd V)) :
    PyVecdotNdL dbg sort axis x y out ↔ out = .raises .typeError := by
  unfold PyVecdotNdL
  simp only [hy, NArr.extract, hf, bind, Except.bind, hs, hd, ne_eq, not_true, if_false, pure, Except.pure,
    Bool.false_eq_true]

/-! ### every call -/

/-- C93: whatever the layout and the dtype, a call of `matmul` raises `TypeError` or does what it does with a
contiguous `float64` copy. -/
theorem matmul_layout_safe {x : PySp V} (hx : x.HandleOk) {y : NArr V} {out : PyRes (DenseNd V)}
    (h : PyMatmulL dbg nthreads x y out) : out = .raises .typeError ∨ PyMatmul dbg nthreads x y.view.toDense out := by
  by_cases c : y.f64 = false ∨ y.view.shape.length ≠ 1 ∨ y.view.CContig
  · exact .inr ((matmul_layout hx y c out).1 h)
  · push Not at c
    obtain ⟨hf, hl, hc⟩ := c
    obtain ⟨n, hs⟩ := List.length_eq_one_iff.1 hl
    exact matVec_safe hs h
where
  matVec_safe {x : PySp V} {y : NArr V} {out : PyRes (DenseNd V)} {n : Nat} (hs : y.view.shape = [n])
      (h : PyMatmulL dbg nthreads x y out) : out = .raises .typeError ∨ PyMatmul dbg nthreads x y.view.toDense out := by
    unfold PyMatmulL AtMulL at h
    unfold PyMatmul AtMul
    simp only [toDense_shape, toDense_data, hs] at h ⊢
    rw [if_pos (by simp)] at h ⊢
    exact matVecL_safe hs h
  matVecL_safe {x : PySp V} {y : NArr V} {out : PyRes (DenseNd V)} {n : Nat} (hs : y.view.shape = [n])
      (h : MatVecL dbg nthreads x y out) : out = .raises .typeError ∨ MatVec dbg nthreads x y.view.elems out := by
    rw [matVecL_iff x y hs] at h
    have hlen : (y.view.elems.length : Int) = n := by rw [y.view.elems_length, hs]; simp
    split at h
    · exact .inr h
    · unfold MatVec
      rw [hlen]
      split at h
      · rename_i c
        rw [if_pos c]
        exact .inr h
      · rename_i c
        rw [if_neg c]
        cases ho : x.operand with
        | error e => rw [ho] at h; exact .inr h
        | ok a => rw [ho] at h; exact .inl h

theorem PySp.gate_safe (x : PySp V) (y : NArr V) :
    (do x.sizes; y.extract; x.parts : Except PyErr (Native V)) = .error .typeError ∨
    (do x.sizes; y.extract; x.parts : Except PyErr (Native V)) = x.parts := by
  by_cases hf : y.f64 = true
  · exact .inr (x.gate y hf)
  · rw [Bool.not_eq_true] at hf
    cases hz : x.sizes with
    | error e => right; rw [x.sizes_parts hz]; rfl
    | ok u => left; exact hz ▸ x.gate_int y hf hz

theorem tensordot_layout_safe {x : PySp V} {axes : AxesArg} {y : NArr V} {out : PyRes (DenseNd V)}
    (h : PyTensordotL dbg nthreads axes x y out) :
    out = .raises .typeError ∨ PyTensordot dbg nthreads axes x y.view.toDense out := by
  unfold PyTensordotL at h
  unfold PyTensordot
  simp only [toDense_shape, toDense_data]
  cases hax : axes2d axes with
  | error e => rw [hax] at h; exact .inr h
  | ok u =>
  rw [hax] at h
  simp only at h ⊢
  match hs : y.view.shape, h with
  | [], h => exact .inr h
  | [n], h =>
    simp only at h ⊢
    split at h
    · rename_i c; rw [if_pos c]; exact .inr h
    · rename_i c
      rw [if_neg c]
      exact matmul_layout_safe.matVecL_safe hs h
  | d :: e :: rest, h =>
    simp only at h ⊢
    split at h
    · rename_i c; rw [if_pos c]; exact .inr h
    · rename_i c
      rw [if_neg c]
      rcases x.gate_safe y with g | g
      · rw [g] at h; exact .inl h
      · rw [g] at h
        cases hp : x.parts with
        | error e => rw [hp] at h; exact .inr h
        | ok a =>
          rw [hp] at h
          simp only at h ⊢
          split at h
          · rename_i c; rw [if_pos c]; exact .inr h
          · rename_i c
            rw [if_neg c]
            rw [y.view.flat_slice] at h
            split at h
            · rename_i s hq
              split at hq
              · cases hq
              · cases hq; exact .inl h
            · rename_i s hq
              split at hq
              · cases hq; exact .inr h
              · cases hq

theorem vecdot_layout_safe {x : PySp V} {axis : Option Int} {y : NArr V} {out : PyRes (DenseNd V)}
    (h : PyVecdotL dbg nthreads axis x y out) :
    out = .raises .typeError ∨ PyVecdot dbg nthreads axis x y.view.toDense out := by
  unfold PyVecdotL at h
  unfold PyVecdot
  simp only [toDense_shape, toDense_data]
  match hs : y.view.shape, h with
  | [], h => exact .inr h
  | _ :: _ :: _, h => exact .inr h
  | [n], h =>
    simp only at h ⊢
    by_cases c1 : axis = none ∨ axis = some (-1) ∨ axis = some 1
    · rw [if_pos c1] at h ⊢
      split at h
      · rename_i c; rw [if_pos c]; exact .inr h
      · rename_i c
        rw [if_neg c]
        exact matmul_layout_safe.matVecL_safe hs h
    · rw [if_neg c1] at h ⊢
      by_cases c0 : axis = some 0
      · rw [if_pos c0] at h ⊢
        split at h
        · rename_i c; rw [if_pos c]; exact .inr h
        · rename_i c
          rw [if_neg c]
          rcases x.gate_safe y with g | g
          · rw [g] at h; exact .inl h
          · rw [g] at h
            cases hp : x.parts with
            | error e => rw [hp] at h; exact .inr h
            | ok a =>
              rw [hp, NdView.slice_one' hs] at h
              simp only at h ⊢
              split at h
              · rename_i s hq
                split at hq
                · cases hq
                · cases hq; exact .inl h
              · rename_i s hq
                split at hq
                · cases hq; exact .inr h
                · cases hq
      · rw [if_neg c0] at h ⊢
        exact .inr h

theorem tensordotNd_layout_safe {sort : List (Nat × V) → List (Nat × V)} {x : PyNd V} {axes : AxesArg} {y : NArr V}
    {out : PyRes (PyNd V)} (h : PyTensordotNdL dbg sort axes x y out) :
    out = .raises .typeError ∨ PyTensordotNd dbg sort axes x y.view.toDense out := by
  by_cases hg : y.f64 = true ∧ y.view.flat.CContig
  · exact .inr ((tensordotNd_layout axes y hg.1 hg.2 out).1 h)
  unfold PyTensordotNdL at h
  unfold PyTensordotNd
  simp only [toDense_shape, toDense_data]
  cases hax : axesNd x.shape.length axes with
  | error e => rw [hax] at h; exact .inr h
  | ok ax =>
  cases hd : pyIndex y.view.shape 0 with
  | error e => simp only [hax, bind, Except.bind, hd] at h ⊢; exact .inr h
  | ok d =>
  cases hs : pyIndex x.shape ax with
  | error e => simp only [hax, bind, Except.bind, hd, hs] at h ⊢; exact .inr h
  | ok s =>
  by_cases hne : (d : Int) ≠ s
  · simp only [hax, bind, Except.bind, hd, hs, if_pos hne] at h ⊢; exact .inr h
  by_cases hf : y.f64 = true
  · have hc : ¬ y.view.flat.CContig := fun c => hg ⟨hf, c⟩
    cases hp : x.parts with
    | error e =>
      simp only [hax, bind, Except.bind, hd, hs, if_neg hne, NArr.extract, hf, if_true, hp, pure, Except.pure] at h ⊢
      exact .inr h
    | ok a =>
      simp only [hax, bind, Except.bind, hd, hs, if_neg hne, NArr.extract, hf, if_true, hp, pure, Except.pure,
        y.view.flat_slice, if_neg hc] at h
      exact .inl h
  · simp only [hax, bind, Except.bind, hd, hs, if_neg hne, NArr.extract, if_neg hf, pure, Except.pure] at h
    exact .inl h

theorem vecdotNd_layout_safe {sort : List (Nat × V) → List (Nat × V)} {x : PyNd V} {axis : Option Int} {y : NArr V}
    {out : PyRes (PyNd V)} (h : PyVecdotNdL dbg sort axis x y out) :
    out = .raises .typeError ∨ PyVecdotNd dbg sort axis x y.view.toDense out := by
  by_cases hg : y.f64 = true ∧ y.view.CContig
  · exact .inr ((vecdotNd_layout axis y hg.1 hg.2 out).1 h)
  unfold PyVecdotNdL at h
  unfold PyVecdotNd
  simp only [toDense_shape, toDense_data]
  match hsh : y.view.shape, h with
  | [], h => exact .inr h
  | _ :: _ :: _, h => exact .inr h
  | [n], h =>
  simp only at h ⊢
  cases hs : pyIndex x.shape (if axis = none ∨ axis = some (-1) then (x.shape.length : Int) - 1 else axis.getD 0) with
  | error e => simp only [bind, Except.bind, hs] at h ⊢; exact .inr h
  | ok s =>
  by_cases hne : (n : Int) ≠ s
  · simp only [bind, Except.bind, hs, if_pos hne] at h ⊢; exact .inr h
  by_cases hf : y.f64 = true
  · have hc : ¬ y.view.CContig := fun c => hg ⟨hf, c⟩
    cases hp : x.parts with
    | error e =>
      simp only [bind, Except.bind, hs, if_neg hne, NArr.extract, hf, if_true, hp, pure, Except.pure] at h ⊢
      exact .inr h
    | ok a =>
      cases hu : axisUsize (if axis = none ∨ axis = some (-1) then (x.shape.length : Int) - 1 else axis.getD 0) with
      | error e =>
        simp only [bind, Except.bind, hs, if_neg hne, NArr.extract, hf, if_true, hp, hu, pure, Except.pure] at h ⊢
        exact .inr h
      | ok u =>
        simp only [bind, Except.bind, hs, if_neg hne, NArr.extract, hf, if_true, hp, hu, pure, Except.pure,
          NdView.slice_one hsh hc] at h
        exact .inl h
  · simp only [bind, Except.bind, hs, if_neg hne, NArr.extract, if_neg hf, pure, Except.pure] at h
    exact .inl h

end

/-! ### constructors -/

/-- What the native constructors accept. -/
def NdView.Flat {α : Type} (v : NdView α) : Prop := v.shape.length = 1 ∧ v.CContig

theorem nativeOfL_flat {cls : Cls} {r c : Int} {ix1 ix2 : NdView Int} {data : NdView V} {chk : Bool} (h1 : ix1.Flat) (h2 : ix2.Flat)
    (h3 : data.Flat) : nativeOfL cls r c ix1 ix2 data chk = nativeOf cls r c ix1.elems ix2.elems data.elems chk := by
  unfold nativeOfL NdView.extract1
  rw [if_pos h1.1, if_pos h2.1, if_pos h3.1, h1.2.slice, h2.2.slice, h3.2.slice]
  unfold nativeOf
  cases pyUsize r with
  | error e => rfl
  | ok r' => cases pyUsize c <;> rfl

theorem NdView.refuses {α : Type} {v : NdView α} (h : ¬ v.Flat) :
    v.extract1 = .error .typeError ∨ v.extract1 = .ok () ∧ v.asSlice = .error .typeError := by
  unfold NdView.extract1
  by_cases h1 : v.shape.length = 1
  · obtain ⟨n, hn⟩ := List.length_eq_one_iff.1 h1
    exact .inr ⟨if_pos h1, v.slice_one hn fun c => h ⟨h1, c⟩⟩
  · exact .inl (if_neg h1)

theorem nativeOfL_not_flat {cls : Cls} {r c : Int} {ix1 ix2 : NdView Int} {data : NdView V} {chk : Bool}
    (h : ¬ (ix1.Flat ∧ ix2.Flat ∧ data.Flat)) : nativeOfL cls r c ix1 ix2 data chk = .error .overflowError ∨
      nativeOfL cls r c ix1 ix2 data chk = .error .typeError := by
  have ov : ∀ {z e}, pyUsize z = .error e → e = .overflowError := by
    intro z e hz
    unfold pyUsize at hz
    split at hz <;> cases hz
    rfl
  unfold nativeOfL
  cases hr : pyUsize r with
  | error e => rw [ov hr]; exact .inl rfl
  | ok r' =>
  cases hc : pyUsize c with
  | error e => rw [ov hc]; exact .inl rfl
  | ok c' =>
  right
  have t : ∀ {α : Type} (v : NdView α), v.extract1 = .error .typeError ∨ v.extract1 = .ok () := by
    intro α v; unfold NdView.extract1; split <;> simp
  have w : ∀ {α : Type} {v : NdView α}, v.Flat → v.extract1 = .ok () := by
    intro α v hv; unfold NdView.extract1; exact if_pos hv.1
  by_cases f1 : ix1.Flat
  · by_cases f2 : ix2.Flat
    · have f3 : ¬ data.Flat := fun f3 => h ⟨f1, f2, f3⟩
      rcases data.refuses f3 with e3 | ⟨e3, e3'⟩
      · simp [w f1, w f2, e3, bind, Except.bind]
      · simp [w f1, w f2, f1.2.slice, f2.2.slice, e3, e3', bind, Except.bind]
    · rcases ix2.refuses f2 with e2 | ⟨e2, e2'⟩
      · simp [w f1, e2, bind, Except.bind]
      · rcases t data with e3 | e3 <;> simp [e2, e2', e3, w f1, f1.2.slice, bind, Except.bind]
  · rcases ix1.refuses f1 with e1 | ⟨e1, e1'⟩
    · simp [e1, bind, Except.bind]
    · rcases t ix2 with e2 | e2 <;> rcases t data with e3 | e3 <;> simp [e1, e1', e2, e3, bind, Except.bind]

/-- C93: with contiguous arrays the object is the one of Model/PyLinalg. -/
theorem new_layout {cls : Cls} {r c : Int} {ix1 ix2 : NdView Int} {data : NdView V} (chk : Bool) (h1 : ix1.Flat) (h2 : ix2.Flat)
    (h3 : data.Flat) : (PySpL.new cls r c ix1 ix2 data chk).map PySpL.toSp =
      PySp.new cls r c ix1.elems ix2.elems data.elems chk := by
  cases cls with
  | csr =>
    unfold PySpL.new PySp.new
    rw [nativeOfL_flat h1 h2 h3, nativeOfL_flat h1 h2 h3]
    cases chk with
    | false => rfl
    | true =>
      cases hq : nativeOf .csr r c ix1.elems ix2.elems data.elems true with
      | error e => simp [hq, bind, Except.bind]; rfl
      | ok a => simp [hq, bind, Except.bind]; rfl
  | csc =>
    unfold PySpL.new PySp.new
    simp only
    rw [nativeOfL_flat h1 h2 h3]; rfl
  | coo =>
    unfold PySpL.new PySp.new
    simp only
    rw [nativeOfL_flat h1 h2 h3]; rfl

/-- C93: an array with gaps or of more dimensions: `CSR` raises if it validates. -/
theorem new_csr_strided {r c : Int} {ix1 ix2 : NdView Int} {data : NdView V} (h : ¬ (ix1.Flat ∧ ix2.Flat ∧ data.Flat)) :
    PySpL.new .csr r c ix1 ix2 data true = .error .overflowError ∨ PySpL.new .csr r c ix1 ix2 data true = .error .typeError := by
  unfold PySpL.new
  rcases nativeOfL_not_flat (cls := .csr) (r := r) (c := c) (chk := true) h with e | e <;> rw [e]
  · exact .inl rfl
  · exact .inr rfl

/-- C93: without validation, and for `CSC` and `COO` even with it, the constructor succeeds with an object on
which every call that needs the native core raises. -/
theorem new_strided {cls : Cls} {r c : Int} {ix1 ix2 : NdView Int} {data : NdView V} {chk : Bool}
    (h : ¬ (ix1.Flat ∧ ix2.Flat ∧ data.Flat)) (hk : cls = .csr → chk = false) :
    ∃ x, PySpL.new cls r c ix1 ix2 data chk = .ok x ∧ x.handle = none ∧ (∃ e, x.operand = .error e) ∧
      (x.parts = .error .overflowError ∨ x.parts = .error .typeError) := by
  have hn : ∀ b, (nativeOfL cls r c ix1 ix2 data b).toOption = none := by
    intro b
    rcases nativeOfL_not_flat (cls := cls) (r := r) (c := c) (chk := b) h with e | e <;> rw [e] <;> rfl
  refine ⟨⟨cls, r, c, ix1, ix2, data, none⟩, ?_, rfl, ?_, nativeOfL_not_flat h⟩
  · cases cls with
    | csr => rw [hk rfl]; unfold PySpL.new; simp only; rw [hn]; rfl
    | csc => unfold PySpL.new; simp only; rw [hn]; rfl
    | coo => unfold PySpL.new; simp only; rw [hn]; rfl
  · unfold PySpL.operand
    cases cls with
    | csr =>
      rcases nativeOfL_not_flat (cls := .csr) (r := r) (c := c) (chk := false) h with e | e
      · exact ⟨_, e⟩
      · exact ⟨_, e⟩
    | csc => exact ⟨_, rfl⟩
    | coo => exact ⟨_, rfl⟩

/-- C93: `COOND` accepts an index array with one row per element, but no call accepts the object. -/
theorem newNd_matrix_indices {shape : List Int} {indices : NdView Int} {data : NdView V} {m n : Nat} (h1 : 1 ≤ shape.length)
    (hi : indices.shape = [m, n]) (hn : n = shape.length) :
    ∃ x, PyNdL.new shape indices data = .ok x ∧ x.parts = .error .typeError := by
  refine ⟨⟨shape, indices, data⟩, ?_, ?_⟩
  · unfold PyNdL.new
    rw [if_neg (by omega), if_neg]
    rw [hi, hn]
    simp
  · unfold PyNdL.parts NdView.extract1
    rw [if_neg (by rw [hi]; simp)]
    rfl

/-- C93: and with one-dimensional contiguous arrays it is the object of Model/PyLinalg. -/
theorem newNd_layout {shape : List Int} {indices : NdView Int} {data : NdView V} (hi : indices.Flat) (hd : data.Flat) :
    (PyNdL.new shape indices data).map PyNdL.toNd = PyNd.new shape indices.elems data.elems ∧
    ∀ x, PyNdL.new shape indices data = .ok x → x.parts = x.toNd.parts := by
  constructor
  · unfold PyNdL.new PyNd.new
    rw [indices.elems_length]
    split
    · rfl
    · split <;> rfl
  · intro x hx
    unfold PyNdL.new at hx
    split at hx
    · cases hx
    · split at hx
      · cases hx
      · cases hx
        unfold PyNdL.parts PyNd.parts PyNdL.toNd NdView.extract1
        simp only [if_pos hi.1, if_pos hd.1, hi.2.slice, hd.2.slice]
        rfl

/-! ### Fortran order -/

/-- C93: `as_slice` gives a matrix in Fortran order column by column, so `spmm_from_parts` would multiply
with the transposed elements; `PySp.new_handleOk` is why no call gets there. -/
theorem fortran_slice {w : NdView V} {m k : Nat} {s0 s1 : Int} (hs : w.shape = [m, k]) (hst : w.strides = [s0, s1])
    (hf : w.FContig) : w.asSlice = .ok (NdView.mk [k, m] [s1, s0] w.start w.mem).elems := by
  unfold NdView.asSlice
  rw [if_pos (.inr hf)]
  congr 1
  unfold NdView.FContig at hf
  rw [hs, hst] at hf
  by_cases hz : m * k = 0
  · have e : (NdView.mk [k, m] [s1, s0] w.start w.mem).elems = [] :=
      List.length_eq_zero_iff.1 (by rw [NdView.elems_length]; simpa [Nat.mul_comm] using hz)
    rw [e, hs]
    simp [hz]
  · have hu : Uniform 1 [k, m] [s1, s0] := by
      rcases hf with hf | ⟨h0, h1, -⟩
      · exact absurd (by simpa using hf) hz
      · refine ⟨?_, ?_, trivial⟩
        · simpa using h1
        · simpa using h0
    show _ = viewElems w.mem [k, m] [s1, s0] w.start
    rw [uniform_elems _ 1 _ _ _ hu, hs]
    simp [Nat.mul_comm]

/-! ### examples -/

section
/-- The column `M[:, 0]` of a matrix with two columns. -/
def colView : NdView Int := ⟨[2], [2], 0, fun i => i + 10⟩
/-- The vector `v[::-1]`. -/
def revView : NdView Int := ⟨[3], [-1], 2, fun i => i⟩
/-- A matrix in Fortran order. -/
def forView : NdView Int := ⟨[2, 2], [1, 2], 0, fun i => i⟩
/-- `M[:, :1]`. -/
def thinView : NdView Int := ⟨[2, 1], [2, 1], 0, fun i => i + 10⟩

example : colView.elems = [10, 12] ∧ ¬ colView.CContig ∧ colView.asSlice.toOption = none := by decide
example : revView.elems = [2, 1, 0] ∧ ¬ revView.CContig := by decide
example : forView.elems = [0, 2, 1, 3] ∧ ¬ forView.CContig ∧ forView.asSlice.toOption = some [0, 1, 2, 3] ∧
    forView.flat.CContig := by decide
example : thinView.elems = [10, 12] ∧ thinView.flat.elems = [10, 12] ∧ ¬ thinView.flat.CContig := by decide

local instance layoutFma : HasFma Int := ⟨fun a b c => a * b + c⟩

/-- `matmul_strided_raises`: the hypotheses hold for the identity matrix and the column. -/
example : ∃ (x : PySp Int), PySp.new .csr 2 2 [0, 1, 2] [0, 1] [1, 1] true = .ok x ∧ x.HandleOk ∧
    (∀ out, PyMatmulL false 1 x ⟨true, colView⟩ out ↔ out = .raises .typeError) ∧
    (∀ out, PyVecdotL false 1 (some 0) x ⟨false, colView⟩ out ↔ out = .raises .typeError) ∧
    (∀ out, PyTensordotL false 1 (.int 1) x ⟨true, thinView⟩ out ↔ out = .raises .typeError) ∧
    (∀ out, PyMatmulL false 1 x ⟨true, forView⟩ out ↔ PyMatmul false 1 x ⟨[2, 2], [0, 2, 1, 3]⟩ out) := by
  have hk : PySp.new .csr 2 2 [0, 1, 2] [0, 1] [(1 : Int), 1] true = .ok ⟨.csr, 2, 2, [0, 1, 2], [0, 1], [1, 1],
      some (.csr ⟨2, 2, [0, 1, 2], [0, 1], [1, 1]⟩)⟩ := by rfl
  refine ⟨_, hk, PySp.new_handleOk hk, ?_, ?_, ?_, ?_⟩
  · exact matmul_strided_raises (n := 2) rfl rfl (by decide) rfl rfl
  · intro out
    exact (vecdot_int (n := 2) rfl rfl out).2 rfl rfl rfl
  · exact tensordot_strided_raises (d := 2) (e := 1) (rest := []) rfl rfl rfl (by decide) rfl
      (a := .csr ⟨2, 2, [0, 1, 2], [0, 1], [1, 1]⟩) rfl
  · exact matmul_layout (PySp.new_handleOk hk) ⟨true, forView⟩ (.inr (.inl (by decide)))

example : ∃ x : PySpL Int, PySpL.new .csc 2 2 ⟨[3], [1], 0, fun i => i⟩ ⟨[2], [1], 0, fun i => i⟩ colView true = .ok x ∧
    x.handle = none := by
  obtain ⟨x, h, h', -⟩ := new_strided (cls := .csc) (r := 2) (c := 2) (ix1 := ⟨[3], [1], 0, fun i => i⟩)
    (ix2 := ⟨[2], [1], 0, fun i => i⟩) (data := colView) (chk := true) (fun h => absurd h.2.2.2 (by decide)) (by simp)
  exact ⟨x, h, h'⟩

example : ∃ x : PyNdL Int, PyNdL.new [2, 2, 2] ⟨[2, 3], [3, 1], 0, fun _ => 0⟩ colView = .ok x ∧ x.parts = .error .typeError :=
  newNd_matrix_indices (by simp) rfl rfl

end
end Lacuna
