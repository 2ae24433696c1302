import Verif.Model.PtrTranspose
import Verif.Model.Cumulative
/-
Cumulative sums and products (crates/lacuna-kernels/src/statistical/cumulative.rs) at pointer level.
Nothing is assumed about the arrays.
-/
namespace Lacuna
variable {V : Type}

/-- `*v.get_unchecked_mut(i) = x`: the vector afterwards. -/
def setUnchecked {α : Type} (v : List α) (i : Nat) (x : α) : Except Fault (List α) :=
  if i < v.length then .ok (v.set i x) else .error .ub

/-- `v[lo..hi].fill(x)` (bounds-checked). -/
def fillRangeP {α : Type} (v : List α) (lo hi : Nat) (x : α) : Except Fault (List α) :=
  if lo ≤ hi ∧ hi ≤ v.length then .ok (v.take lo ++ List.replicate (hi - lo) x ++ v.drop hi) else .error .panic

/-- `vec![0.0f64; n]`; panics above `isize::MAX` bytes. -/
def zeroVecP [Zero V] (n : Nat) : Except Fault (List V) :=
  if 8 * (n : Int) ≤ i64Max then .ok (List.replicate n 0) else .error .panic

/-- Body of the loop over the stored entries of a row (cumulative.rs 60–72). -/
def cumsumBodyP [Add V] (dbg : Bool) (a : Comp V) (s : Nat × CumSt V) : Except Fault (Nat × CumSt V) := do
  let col ← i64ToUsizeP dbg (← getUnchecked a.indices s.1)
  let out ← if col > s.2.prev then fillRangeP s.2.out s.2.prev col s.2.acc else pure s.2.out
  let v ← getUnchecked a.data s.1
  let acc := s.2.acc + v
  let out ← setUnchecked out col acc
  let prev ← addUsize dbg col 1
  pure (s.1 + 1, ⟨out, prev, acc⟩)

/-- Row `i` with its chunk of the output (cumulative.rs 53–77). -/
def cumsumRowP [Zero V] [Add V] (dbg : Bool) (F : Nat) (a : Comp V) (c : List V × Nat) :
    Except Fault (List V) := do
  let s ← i64ToUsizeP dbg (← index a.indptr c.2)
  let e ← i64ToUsizeP dbg (← index a.indptr (c.2 + 1))
  let st ← untilP F e (cumsumBodyP dbg a) (s, ⟨c.1, 0, 0⟩)
  if st.2.prev < a.m then fillRangeP st.2.out st.2.prev st.2.out.length st.2.acc else pure st.2.out

/-- Body of the loop of the product (cumulative.rs 118–131); the flag is set by `return`. -/
def cumprodBodyP [Mul V] (dbg : Bool) (a : Comp V) (s : Nat × CumSt V × Bool) :
    Except Fault (Nat × CumSt V × Bool) := do
  let col ← i64ToUsizeP dbg (← getUnchecked a.indices s.1)
  if col > s.2.1.prev then pure (s.1, s.2.1, true)
  else
    let v ← getUnchecked a.data s.1
    let acc := s.2.1.acc * v
    let out ← setUnchecked s.2.1.out col acc
    let prev ← addUsize dbg col 1
    pure (s.1 + 1, ⟨out, prev, acc⟩, false)

/-- Row `i` of the product (cumulative.rs 111–133). -/
def cumprodRowP [One V] [Mul V] (dbg : Bool) (F : Nat) (a : Comp V) (c : List V × Nat) :
    Except Fault (List V) := do
  let s ← i64ToUsizeP dbg (← index a.indptr c.2)
  let e ← i64ToUsizeP dbg (← index a.indptr (c.2 + 1))
  let st ← whileM (fun s => pure (!s.2.2 && decide (s.1 < e))) (cumprodBodyP dbg a) F (s, ⟨c.1, 0, 1⟩, false)
  pure st.2.1.out

/-- `par_chunks_mut(ncols).enumerate().for_each(..)` on the zero-filled output: each task owns its
chunk (cumulative.rs 44–52, 102–110). -/
def CumRowsPtr [Zero V] (dbg : Bool) (a : Csr V) (row : List V × Nat → Except Fault (List V))
    (out : Except Fault (List V)) : Prop :=
  if a.nrows = 0 ∨ a.ncols = 0 then out = .ok []
  else match (do zeroVecP (← mulUsize dbg a.nrows a.ncols) : Except Fault (List V)) with
    | .error x => out = .error x
    | .ok z => ∃ oe, ParEach (chunksOf a.ncols z).zipIdx row oe ∧ out = oe.map List.flatten

/-- `csr_cumsum_dense_axis1_f64` (cumulative.rs 43–79). -/
def CumsumAxis1Ptr [Zero V] [Add V] (dbg : Bool) (F : Nat) (a : Csr V) (out : Except Fault (List V)) : Prop :=
  CumRowsPtr dbg a (cumsumRowP dbg F a.comp) out
/-- `csr_cumprod_dense_axis1_f64` (cumulative.rs 101–135). -/
def CumprodAxis1Ptr [Zero V] [One V] [Mul V] (dbg : Bool) (F : Nat) (a : Csr V) (out : Except Fault (List V)) :
    Prop := CumRowsPtr dbg a (cumprodRowP dbg F a.comp) out

/-- One element of `transpose_dense_row_major` (cumulative.rs 26–34); `base_in` is computed once per
row in the source. -/
def transposeDenseStepP (dbg : Bool) (input : List V) (rows cols : Nat) (out : List V) (p : Nat × Nat) :
    Except Fault (List V) := do
  let baseIn ← mulUsize dbg p.1 cols
  let v ← getUnchecked input (← addUsize dbg baseIn p.2)
  let baseOut ← mulUsize dbg p.2 rows
  setUnchecked out (← addUsize dbg baseOut p.1) v

/-- `transpose_dense_row_major` (cumulative.rs 23–37). -/
def transposeDenseP [Zero V] (dbg : Bool) (input : List V) (rows cols : Nat) : Except Fault (List V) := do
  let out ← zeroVecP (← mulUsize dbg rows cols)
  ((List.range rows).flatMap fun r => (List.range cols).map fun c => (r, c)).foldlM
    (transposeDenseStepP dbg input rows cols) out

/-- The axis-0 kernels (cumulative.rs 85–95, 141–151): transpose, apply the axis-1 kernel,
transpose the dense result. -/
def CumAxis0Ptr [Zero V] (dbg : Bool) (F : Nat) (sort : List (Int × V) → List (Int × V)) (threads : Nat)
    (axis1 : Csr V → Except Fault (List V) → Prop) (a : Csr V) (out : Except Fault (List V)) : Prop :=
  if a.nrows = 0 ∨ a.ncols = 0 then out = .ok []
  else ∃ ot, TransposeCsrPtr dbg F sort threads a ot ∧
    match ot with
    | .error x => out = .error x
    | .ok t => ∃ oy, axis1 t oy ∧ out = oy.bind fun y => transposeDenseP dbg y t.nrows t.ncols

/-- `csr_cumsum_dense_axis0_f64` (cumulative.rs 85–95). -/
def CumsumAxis0Ptr [Zero V] [Add V] (dbg : Bool) (F : Nat) (sort : List (Int × V) → List (Int × V))
    (threads : Nat) (a : Csr V) (out : Except Fault (List V)) : Prop :=
  CumAxis0Ptr dbg F sort threads (CumsumAxis1Ptr dbg F) a out
/-- `csr_cumprod_dense_axis0_f64` (cumulative.rs 141–151). -/
def CumprodAxis0Ptr [Zero V] [One V] [Mul V] (dbg : Bool) (F : Nat) (sort : List (Int × V) → List (Int × V))
    (threads : Nat) (a : Csr V) (out : Except Fault (List V)) : Prop :=
  CumAxis0Ptr dbg F sort threads (CumprodAxis1Ptr dbg F) a out

end Lacuna
