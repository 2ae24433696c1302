import Verif.Model.Ptr
import Verif.Model.Spmv
/-
`spmv_f64_i64` (crates/lacuna-kernels/src/linalg/matmul.rs 451–661) and
`vecdot_csc_dense_axis0_f64_i64` (crates/lacuna-kernels/src/linalg/vecdot.rs 240–389) at pointer
level.

Simplification: the two operands of a `mul_add` are read in the order of the stored entries;
the source evaluates the nested calls from the outside.  The reads are the same.
-/
namespace Lacuna
variable {V : Type}

/-- `x & !m` on `usize`. -/
def andNot (x m : Nat) : Nat := x &&& (usizeMax - m)

/-- The three accesses of the unrolled loops: index `p` (as `usize`), value `p`, and the
element of the vector at an index. -/
structure Loads (V : Type) where
  idx : Nat → Except Fault Nat
  val : Nat → Except Fault V
  vec : Nat → Except Fault V

/-- `(*val(p)).mul_add(*x.get_unchecked(j), acc)`. -/
def fmaP [HasFma V] (L : Loads V) (p j : Nat) (acc : V) : Except Fault V := do
  let v ← L.val p
  let x ← L.vec j
  pure (mulAdd v x acc)

/-- Four chained `mul_add` (matmul.rs 488–497). -/
def fma4P [HasFma V] (L : Loads V) (p j0 j1 j2 j3 : Nat) (acc : V) : Except Fault V := do
  let acc ← fmaP L p j0 acc
  let acc ← fmaP L (p + 1) j1 acc
  let acc ← fmaP L (p + 2) j2 acc
  fmaP L (p + 3) j3 acc

/-- The body of the loop over blocks of 16 (matmul.rs 471–529, vecdot.rs 258–320). -/
def block16P [HasFma V] (L : Loads V) (s : Nat × V) : Except Fault (Nat × V) := do
  let p := s.1
  let j0 ← L.idx p
  let j1 ← L.idx (p + 1)
  let j2 ← L.idx (p + 2)
  let j3 ← L.idx (p + 3)
  let j4 ← L.idx (p + 4)
  let j5 ← L.idx (p + 5)
  let j6 ← L.idx (p + 6)
  let j7 ← L.idx (p + 7)
  let j8 ← L.idx (p + 8)
  let j9 ← L.idx (p + 9)
  let j10 ← L.idx (p + 10)
  let j11 ← L.idx (p + 11)
  let j12 ← L.idx (p + 12)
  let j13 ← L.idx (p + 13)
  let j14 ← L.idx (p + 14)
  let j15 ← L.idx (p + 15)
  let acc ← fma4P L p j0 j1 j2 j3 s.2
  let acc ← fma4P L (p + 4) j4 j5 j6 j7 acc
  let acc ← fma4P L (p + 8) j8 j9 j10 j11 acc
  let acc ← fma4P L (p + 12) j12 j13 j14 j15 acc
  pure (p + 16, acc)

/-- The body of the loop over blocks of 8 (matmul.rs 534–565, vecdot.rs 324–354). -/
def block8P [HasFma V] (L : Loads V) (s : Nat × V) : Except Fault (Nat × V) := do
  let p := s.1
  let j0 ← L.idx p
  let j1 ← L.idx (p + 1)
  let j2 ← L.idx (p + 2)
  let j3 ← L.idx (p + 3)
  let j4 ← L.idx (p + 4)
  let j5 ← L.idx (p + 5)
  let j6 ← L.idx (p + 6)
  let j7 ← L.idx (p + 7)
  let acc ← fma4P L p j0 j1 j2 j3 s.2
  let acc ← fma4P L (p + 4) j4 j5 j6 j7 acc
  pure (p + 8, acc)

/-- The body of the loop over blocks of 4 (matmul.rs 570–586, vecdot.rs 358–375). -/
def block4P [HasFma V] (L : Loads V) (s : Nat × V) : Except Fault (Nat × V) := do
  let p := s.1
  let j0 ← L.idx p
  let j1 ← L.idx (p + 1)
  let j2 ← L.idx (p + 2)
  let j3 ← L.idx (p + 3)
  let acc ← fma4P L p j0 j1 j2 j3 s.2
  pure (p + 4, acc)

/-- The body of the last loop (matmul.rs 589–593, vecdot.rs 378–382). -/
def block1P [HasFma V] (L : Loads V) (s : Nat × V) : Except Fault (Nat × V) := do
  let j ← L.idx s.1
  let acc ← fmaP L s.1 j s.2
  pure (s.1 + 1, acc)

/-- `while p < limit { body }`. -/
def untilP {σ : Type} (F limit : Nat) (body : Nat × σ → Except Fault (Nat × σ)) (s : Nat × σ) :
    Except Fault (Nat × σ) :=
  whileM (fun s => pure (decide (s.1 < limit))) body F s

/-- `spmv_row_f64_i64` (matmul.rs 451–596). -/
def spmvRowP [Zero V] [HasFma V] (dbg : Bool) (F : Nat) (a : Comp V) (x : List V) (i : Nat) :
    Except Fault V := do
  let start ← i64ToUsizeP dbg (← index a.indptr i)
  let stop ← i64ToUsizeP dbg (← index a.indptr (i + 1))
  let len ← subUsize dbg stop start
  if len = 0 then pure 0
  else
    let idx ← (asPtr a.indices).add start
    let val ← (asPtr a.data).add start
    let L : Loads V :=
      { idx := fun t => do i64ToUsizeP dbg (← idx.get t), val := val.get, vec := getUnchecked x }
    let s ← untilP F (andNot len 15) (block16P L) (0, 0)
    let s ← untilP F (andNot len 7) (block8P L) s
    let s ← untilP F (andNot len 3) (block4P L) s
    let s ← untilP F len (block1P L) s
    pure s.2

/-- The pointer differences read by the range loop (matmul.rs 634–637). -/
def lineLenP (dbg : Bool) (a : Comp V) (i : Nat) : Except Fault Nat := do
  let s ← i64ToUsizeP dbg (← index a.indptr i)
  let e ← i64ToUsizeP dbg (← index a.indptr (i + 1))
  subUsize dbg e s

/-- One parallel work item (matmul.rs 651–659): the stores of the rows `r0..r1`. -/
def spmvRangeP [Zero V] [HasFma V] (dbg : Bool) (F : Nat) (a : Comp V) (x : List V) (r : Nat × Nat) :
    Except Fault (List (Nat × V)) :=
  (rangeLines r).mapM fun i => do
    let v ← spmvRowP dbg F a x i
    MutPtr.put ⟨a.n, 0⟩ i v

/-- `items.into_par_iter().for_each(..)`: the stores of the work items, or the fault of one. -/
def ParEach {α β : Type} (items : List α) (f : α → Except Fault β) : Except Fault (List β) → Prop
  | .ok l => items.map f = l.map .ok
  | .error e => ∃ i ∈ items, f i = .error e

/-- No two work items store to the same position. -/
def raceFree1 {α : Type} (evs : List (List (Nat × α))) : Prop :=
  evs.Pairwise fun s t => ∀ p ∈ s.map Prod.fst, p ∉ t.map Prod.fst

/-- The buffer after the stores of parallel work items, for every schedule. -/
def ParStore {α : Type} (init : List α) (evs : List (List (Nat × α)))
    (out : Except Fault (List α)) : Prop :=
  (¬ raceFree1 evs ∧ out = .error .ub) ∨
  (raceFree1 evs ∧ ∃ w, w.Perm evs.flatten ∧ out = .ok (applyWrites init w))

/-- `a + b` on `usize`. -/
def addUsize (dbg : Bool) (a b : Nat) : Except Fault Nat :=
  if a + b ≤ usizeMax then .ok (a + b)
  else if dbg then .error .panic else .ok ((a + b) % 2 ^ 64)

/-- The work ranges, with the pointer reads and the running sum of the loop
(sum.rs 225–246, matmul.rs 629–650): `k` lines are left, the current line is `i`. -/
def rangesP (dbg : Bool) (target : Nat) (a : Comp V) : Nat → Nat → Nat → Nat →
    Except Fault (List (Nat × Nat))
  | 0, i, acc, r0 => pure (if acc > 0 then [(r0, i)] else [])
  | k + 1, i, acc, r0 => do
    let w ← lineLenP dbg a i
    let r0 := if acc = 0 then i else r0
    let acc ← addUsize dbg acc w
    if acc ≥ target then
      let rest ← rangesP dbg target a k (i + 1) 0 r0
      pure ((r0, i + 1) :: rest)
    else rangesP dbg target a k (i + 1) acc r0

/-- Parallel work items over ranges of lines, each storing through a raw pointer to a vector
initialised with `init` (sum.rs 246–274, matmul.rs 651–660). -/
def RangesPtr {α β : Type} (items : Except Fault (List α)) (item : α → Except Fault (List (Nat × β)))
    (init : List β) (out : Except Fault (List β)) : Prop :=
  match items with
  | .error x => out = .error x
  | .ok rs => ∃ oe, ParEach rs item oe ∧
    match oe with
    | .error x => out = .error x
    | .ok evs => ParStore init evs out

/-- The possible outcomes of `spmv_f64_i64` (matmul.rs 615–661). -/
def SpmvPtrRun [Zero V] [HasFma V] (dbg : Bool) (F : Nat) (a : Csr V) (x : List V)
    (out : Except Fault (List V)) : Prop :=
  if x.length = a.ncols then
    if a.nrows ≤ smallDimLimit ∨ a.data.length ≤ smallNnzLimit then
      out = (List.range a.nrows).mapM (spmvRowP dbg F a.comp x)
    else
      RangesPtr (rangesP dbg (128 * 1024) a.comp a.nrows 0 0 0) (spmvRangeP dbg F a.comp x)
        (List.replicate a.nrows 0) out
  else out = .error .panic

/-- One column of `vecdot_csc_dense_axis0_f64_i64` (vecdot.rs 246–387). -/
def vecdotColP [Zero V] [HasFma V] (dbg : Bool) (F : Nat) (a : Comp V) (x : List V) (j : Nat) :
    Except Fault V := do
  let s ← i64ToUsizeP dbg (← index a.indptr j)
  let e ← i64ToUsizeP dbg (← index a.indptr (j + 1))
  let L : Loads V :=
    { idx := fun p => do i64ToUsizeP dbg (← getUnchecked a.indices p)
      val := getUnchecked a.data, vec := getUnchecked x }
  let end16 ← subUsize dbg e ((← subUsize dbg e s) &&& 15)
  let st ← untilP F end16 (block16P L) (s, 0)
  let end8 ← subUsize dbg e ((← subUsize dbg e st.1) &&& 7)
  let st ← untilP F end8 (block8P L) st
  let end4 ← subUsize dbg e ((← subUsize dbg e st.1) &&& 3)
  let st ← untilP F end4 (block4P L) st
  let st ← untilP F e (block1P L) st
  pure st.2

/-- The possible outcomes of `vecdot_csc_dense_axis0_f64_i64` (vecdot.rs 240–389); every
iteration owns its element of the output (`par_iter_mut`). -/
def VecdotCscPtrRun [Zero V] [HasFma V] (dbg : Bool) (F : Nat) (a : Csc V) (x : List V)
    (out : Except Fault (List V)) : Prop :=
  if x.length = a.nrows then ParCollect a.ncols (vecdotColP dbg F a.comp x) out
  else out = .error .panic

end Lacuna
