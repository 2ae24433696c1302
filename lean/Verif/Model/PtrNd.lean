import Verif.Model.PtrTranspose
import Verif.Model.Unfold
/-
`reshape_coond_f64_i64` (manipulation/reshape.rs 51–92) and `coond_axes_to_coo_f64_i64`
(data_type_functions/astype.rs 353–446) at pointer level, and the Python bindings that call them
(crates/lacuna-py/src/array_api/manipulation.rs 186–217, utility.rs 306–376).  Nothing is assumed
about the arrays.

Simplification: the vectors of shapes and strides have at most as many elements as the shape they
are computed from, so their allocation cannot fail when the shape exists; it is left out.  The
allocation of the index arrays is kept.
-/
namespace Lacuna
variable {V : Type}

/-- `x.expect(..)`, `assert!`. -/
def expectP {α : Type} : Option α → Except Fault α
  | some x => .ok x
  | none => .error .panic

/-- One axis of the linearisation loop (reshape.rs 71–77; astype.rs 383–393, 395–405, 416–426,
428–438): the `m`-th axis of the loop is axis `d`; `stride m` is the stride used for it. -/
def linStepP (dbg : Bool) (indices : List Int) (base : Nat) (stride : Nat → Except Fault Nat)
    (lin : Nat) (dm : Nat × Nat) : Except Fault Nat := do
  let p ← addUsize dbg base dm.1
  let idx ← i64ToUsizeP dbg (← getUnchecked indices p)
  let s ← stride dm.2
  let q ← expectP (checkedMul idx s)
  expectP (checkedAdd lin q)

/-- The loop; `axes.iter().enumerate()` (in reshape.rs the axes are `0..ndim_old`). -/
def linP (dbg : Bool) (indices : List Int) (base : Nat) (stride : Nat → Except Fault Nat)
    (axes : List Nat) : Except Fault Nat :=
  axes.zipIdx.foldlM (linStepP dbg indices base stride) 0

/-! ### reshape -/

/-- Remainder and the stores made so far. -/
abbrev DelinSt := Nat × List (Nat × Int)

/-- One new axis (reshape.rs 81–89); the output buffer has `cap` elements. -/
def delinStepP (dbg : Bool) (ns : List Nat) (cap base : Nat) (st : DelinSt) (d : Nat) :
    Except Fault DelinSt := do
  let s ← index ns d
  let idx := if s = 0 then 0 else st.1 / s
  let q ← mulUsize dbg idx s
  let rem ← subUsize dbg st.1 q
  let p ← addUsize dbg base d
  let out ← MutPtr.add ⟨cap, 0⟩ p
  let x ← usizeToI64P dbg idx
  let w ← out.write x
  pure (rem, st.2 ++ [w])

/-- Entry `k` (reshape.rs 68–90). -/
def reshapeItemP (dbg : Bool) (a : CooNd V) (os ns : List Nat) (ndimNew cap k : Nat) :
    Except Fault (List (Nat × Int)) := do
  let baseOld ← mulUsize dbg k a.shape.length
  let lin ← linP dbg a.indices baseOld (index os) (List.range a.shape.length)
  let baseNew ← mulUsize dbg k ndimNew
  let st ← (List.range ndimNew).foldlM (delinStepP dbg ns cap baseNew) (lin, [])
  pure st.2

/-- The checks in front of the early return (reshape.rs 52–57). -/
def reshapeCheckP (a : CooNd V) (newShape : List Nat) : Except Fault Unit := do
  let oldElems ← expectP (productChecked a.shape)
  let newElems ← expectP (productChecked newShape)
  if oldElems = newElems then pure () else .error .panic

/-- Strides and the output buffer (reshape.rs 64–66): `nnz * ndim_new` is an unchecked
multiplication. -/
def reshapePlanP (dbg : Bool) (a : CooNd V) (newShape : List Nat) :
    Except Fault (List Nat × List Nat × List Int) := do
  let os ← expectP (strides? a.shape)
  let ns ← expectP (strides? newShape)
  let len ← mulUsize dbg a.data.length newShape.length
  let buf ← zerosP len
  pure (os, ns, buf)

/-- `reshape_coond_f64_i64` (reshape.rs 51–92), for every schedule of the parallel loop. -/
def ReshapePtr (dbg : Bool) (a : CooNd V) (newShape : List Nat) (out : Except Fault (CooNd V)) : Prop :=
  match reshapeCheckP a newShape with
  | .error x => out = .error x
  | .ok _ =>
    if a.data.length = 0 then out = .ok ⟨newShape, [], []⟩
    else match reshapePlanP dbg a newShape with
      | .error x => out = .error x
      | .ok (os, ns, buf) => ∃ oe,
        ParEach (List.range a.data.length)
          (reshapeItemP dbg a os ns newShape.length buf.length) oe ∧
        match oe with
        | .error x => out = .error x
        | .ok evs => ∃ o, ParStore buf evs o ∧ out = o.map fun ix => ⟨newShape, ix, a.data⟩

/-! ### unfolding -/

/-- Row and column axes with their strides. -/
structure UnfoldPlan where
  nrows : Nat
  ncols : Nat
  colAxes : List Nat
  rst : List Nat
  cst : List Nat

/-- The part in front of the loops (astype.rs 354–372).  The axes are in range once they are
validated, so `a.shape[d]` is inside the slice. -/
def unfoldPlanP (a : CooNd V) (rowAxes : List Nat) : Except Fault UnfoldPlan := do
  let used ← expectP (checkAxes a.shape.length rowAxes (List.replicate a.shape.length false))
  let colAxes := (List.range a.shape.length).filter fun d => !(used.getD d false)
  let rowShape ← rowAxes.mapM (index a.shape)
  let colShape ← colAxes.mapM (index a.shape)
  let nrows ← expectP (productChecked rowShape)
  let ncols ← expectP (productChecked colShape)
  let rst ← expectP (strides? rowShape)
  let cst ← expectP (strides? colShape)
  pure ⟨nrows, ncols, colAxes, rst, cst⟩

/-- `if strides.is_empty() { 0 } else { strides[m] }` (astype.rs 385–389, 397–401, 418–422,
430–434). -/
def strideOrP (st : List Nat) (m : Nat) : Except Fault Nat :=
  if st.isEmpty then pure 0 else index st m

/-- Row and column of entry `k` (astype.rs 381–405, 414–438). -/
def unfoldLinP (dbg : Bool) (a : CooNd V) (rowAxes : List Nat) (pl : UnfoldPlan) (k : Nat) :
    Except Fault (Nat × Nat) := do
  let base ← mulUsize dbg k a.shape.length
  let r ← linP dbg a.indices base (strideOrP pl.rst) rowAxes
  let c ← linP dbg a.indices base (strideOrP pl.cst) pl.colAxes
  pure (r, c)

/-- Entry `k` of the sequential loop (astype.rs 380–408): checked stores. -/
def unfoldStepP (dbg : Bool) (a : CooNd V) (rowAxes : List Nat) (pl : UnfoldPlan)
    (st : List Int × List Int) (k : Nat) : Except Fault (List Int × List Int) := do
  let rc ← unfoldLinP dbg a rowAxes pl k
  let row ← setIdxP st.1 k (← usizeToI64P dbg rc.1)
  let col ← setIdxP st.2 k (← usizeToI64P dbg rc.2)
  pure (row, col)

/-- Entry `k` of the parallel loop (astype.rs 413–443): raw stores.  The value is computed before
the place it is assigned to. -/
def unfoldItemP (dbg : Bool) (a : CooNd V) (rowAxes : List Nat) (pl : UnfoldPlan) (k : Nat) :
    Except Fault ((Nat × Int) × (Nat × Int)) := do
  let rc ← unfoldLinP dbg a rowAxes pl k
  let x ← usizeToI64P dbg rc.1
  let wr ← MutPtr.put ⟨a.data.length, 0⟩ k x
  let y ← usizeToI64P dbg rc.2
  let wc ← MutPtr.put ⟨a.data.length, 0⟩ k y
  pure (wr, wc)

/-- The two loops (astype.rs 377–445). -/
def UnfoldLoopPtr (dbg : Bool) (a : CooNd V) (rowAxes : List Nat) (pl : UnfoldPlan)
    (out : Except Fault (Coo V)) : Prop :=
  match zerosP a.data.length with
  | .error x => out = .error x
  | .ok z =>
    if a.data.length < smallNnzLimit then
      out = ((List.range a.data.length).foldlM (unfoldStepP dbg a rowAxes pl) (z, z)).map
        fun st => ⟨pl.nrows, pl.ncols, st.1, st.2, a.data⟩
    else ∃ oe, ParEach (List.range a.data.length) (unfoldItemP dbg a rowAxes pl) oe ∧
      match oe with
      | .error x => out = .error x
      | .ok evs => ∃ orow ocol, ParStore z (evs.map fun e => [e.1]) orow ∧
        ParStore z (evs.map fun e => [e.2]) ocol ∧
        out = orow.bind fun row => ocol.map fun col => ⟨pl.nrows, pl.ncols, row, col, a.data⟩

/-- `coond_axes_to_coo_f64_i64` (astype.rs 353–446). -/
def UnfoldPtr (dbg : Bool) (a : CooNd V) (rowAxes : List Nat) (out : Except Fault (Coo V)) : Prop :=
  match unfoldPlanP a rowAxes with
  | .error x => out = .error x
  | .ok pl =>
    if a.data.length = 0 then out = .ok ⟨pl.nrows, pl.ncols, [], [], []⟩
    else UnfoldLoopPtr dbg a rowAxes pl out

/-! ### the Python bindings -/

/-- `convert_shape_i64_to_usize`, `convert_axes_i64_to_usize` (helpers.rs 9–49); the conversion
of a non-negative `i64` cannot fail. -/
def convertDims (msg : String) : List Int → Except String (List Nat)
  | [] => .ok []
  | s :: rest => if s < 0 then .error msg else (convertDims msg rest).map (s.toNat :: ·)

/-- `coond_reshape_from_parts` (manipulation.rs 186–217): `.error` is a fault of the native code,
`.ok (.error msg)` a Python exception.  The conversion of the new shape back to `i64` cannot fail
as it came from `i64`. -/
def PyReshapePtr (dbg : Bool) (shape indices : List Int) (data : List V) (newShape : List Int)
    (check : Bool) (out : Except Fault (Except String (CooNd V))) : Prop :=
  match convertDims "shape dimensions must be non-negative" shape,
    convertDims "shape dimensions must be non-negative" newShape with
  | .error m, _ => out = .ok (.error m)
  | .ok _, .error m => out = .ok (.error m)
  | .ok sh, .ok nsh =>
    match CooNd.fromParts sh indices data check with
    | .error m => out = .ok (.error m)
    | .ok a => ∃ o, ReshapePtr dbg a nsh o ∧ out = o.map .ok

/-- `coond_axes_to_csr_from_parts`, `coond_axes_to_csc_from_parts` (utility.rs 306–376) up to the
matrix in COO form that is then compressed. -/
def PyUnfoldPtr (dbg : Bool) (shape indices : List Int) (data : List V) (rowAxes : List Int)
    (check : Bool) (out : Except Fault (Except String (Coo V))) : Prop :=
  match convertDims "shape dimensions must be non-negative" shape,
    convertDims "row_axes must be non-negative" rowAxes with
  | .error m, _ => out = .ok (.error m)
  | .ok _, .error m => out = .ok (.error m)
  | .ok sh, .ok axes =>
    match CooNd.fromParts sh indices data check with
    | .error m => out = .ok (.error m)
    | .ok a => ∃ o, UnfoldPtr dbg a axes o ∧ out = o.map .ok

end Lacuna
