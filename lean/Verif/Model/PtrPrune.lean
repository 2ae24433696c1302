import Verif.Model.PtrConvert
import Verif.Model.PtrElementwise
import Verif.Model.PtrSimd
/-
`prune_eps` / `prune_eps_csc` (utility/prune.rs) at pointer level.  Nothing is assumed about the
arrays.  The lines are the windows of two consecutive pointers, so their number depends on the
length of `indptr`, not on the shape.
-/
namespace Lacuna
variable {V : Type}

/-- Number of windows of `a.indptr.windows(2)`. -/
def windowsLen (a : Comp V) : Nat := a.indptr.length - 1

/-- `i64_to_usize(window[0])`, `i64_to_usize(window[1])`
(prune.rs 133–134, 144–145, 167–168, 189–190, 250–251, 261–262, 284–285, 306–307). -/
def windowP (dbg : Bool) (a : Comp V) (i : Nat) : Except Fault (Nat × Nat) := do
  let s ← i64ToUsizeP dbg (← index a.indptr i)
  let e ← i64ToUsizeP dbg (← index a.indptr (i + 1))
  pure (s, e)

section
variable [HasLt V] [HasAbs V]

/-- The number of entries kept in window `i` (prune.rs 133–136, 167–170, 250–253, 284–287). -/
def pruneCountP (dbg : Bool) (F : Nat) (eps : V) (a : Comp V) (i : Nat) : Except Fault Nat := do
  let w ← windowP dbg a i
  let values ← sliceP a.data w.1 w.2
  countSigP F eps values

/-! ### fewer than `SMALL_NNZ_PRUNE` entries: one thread, checked accesses -/

/-- `indptr[i + 1] = indptr[i] + usize_to_i64(retained)` (prune.rs 132–138, 249–255). -/
def pruneCountStep (dbg : Bool) (F : Nat) (eps : V) (a : Comp V) (ptr : List Int) (i : Nat) :
    Except Fault (List Int) := do
  let retained ← pruneCountP dbg F eps a i
  let x ← index ptr i
  let y ← addI64 dbg x (← usizeToI64P dbg retained)
  setIdxP ptr (i + 1) y

/-- Destination and the two output arrays. -/
abbrev CopySt (V : Type) := Nat × List Int × List V

/-- One entry of `copy_significant_entries` (prune.rs 80–84). -/
def copyStep (dbg : Bool) (eps : V) (st : CopySt V) (e : Int × V) : Except Fault (CopySt V) :=
  if significant eps e.2 then do
    let ix ← setIdxP st.2.1 st.1 e.1
    let vs ← setIdxP st.2.2 st.1 e.2
    let d ← addUsize dbg st.1 1
    pure (d, ix, vs)
  else pure st

/-- One window of the copy (prune.rs 143–157, 260–274). -/
def copyWindowP (dbg : Bool) (eps : V) (a : Comp V) (ptr : List Int) (st : List Int × List V) (i : Nat) :
    Except Fault (List Int × List V) := do
  let w ← windowP dbg a i
  let d ← i64ToUsizeP dbg (← index ptr i)
  let ix ← sliceP a.indices w.1 w.2
  let vs ← sliceP a.data w.1 w.2
  let r ← (ix.zip vs).foldlM (copyStep dbg eps) (d, st)
  pure r.2

/-- The sequential path (prune.rs 129–159, 246–276). -/
def pruneSmallP [Zero V] (dbg : Bool) (F : Nat) (eps : V) (a : Comp V) : Except Fault (Comp V) := do
  let len ← addUsize dbg a.n 1
  let ptr ← zerosP len
  let ptr ← (List.range (windowsLen a)).foldlM (pruneCountStep dbg F eps a) ptr
  let nnz ← i64ToUsizeP dbg (← index ptr a.n)
  let ix ← zerosP nnz
  let st ← (List.range (windowsLen a)).foldlM (copyWindowP dbg eps a ptr) (ix, List.replicate nnz 0)
  pure ⟨a.n, a.m, ptr, st.1, st.2⟩

/-! ### the parallel path -/

/-- Destination and the stores made so far. -/
abbrev PruneSt (V : Type) := Nat × Stores V

/-- One entry of the parallel fill (prune.rs 197–205, 314–322). -/
def pruneFillStep (dbg : Bool) (eps : V) (a : Comp V) (nnz : Nat) (st : PruneSt V) (t : Nat) :
    Except Fault (PruneSt V) := do
  let v ← (asPtr a.data).get t
  if significant eps v then
    let q ← MutPtr.add ⟨nnz, 0⟩ st.1
    let x ← (asPtr a.indices).get t
    let w ← q.write x
    let q ← MutPtr.add ⟨nnz, 0⟩ st.1
    let u ← q.write v
    let d ← addUsize dbg st.1 1
    pure (d, st.2.1 ++ [w], st.2.2 ++ [u])
  else pure st

/-- One window of the parallel fill (prune.rs 188–207, 305–324).  The new pointers are read
through a raw pointer. -/
def pruneFillP (dbg : Bool) (eps : V) (a : Comp V) (ptr : List Int) (nnz i : Nat) : Except Fault (Stores V) := do
  let w ← windowP dbg a i
  let d ← i64ToUsizeP dbg (← (asPtr ptr).get i)
  let st ← (List.range' w.1 (w.2 - w.1)).foldlM (pruneFillStep dbg eps a nnz) (d, ([], []))
  pure st.2

/-- New pointers and number of entries (prune.rs 172–178, 289–295). -/
def prunePlanP (dbg : Bool) (a : Comp V) (counts : List Nat) : Except Fault (List Int × Nat) := do
  let len ← addUsize dbg a.n 1
  let _ ← zerosP len
  let ptr ← ptrLoopP dbg 0 counts
  let nnz ← i64ToUsizeP dbg (← index ptr a.n)
  let _ ← zerosP nnz
  pure (ptr, nnz)

/-- The parallel path (prune.rs 161–208, 278–325).  The counting pass zips `a.n` counters with the
windows; the fill runs over all windows. -/
def PruneLargePtr [Zero V] (dbg : Bool) (F : Nat) (eps : V) (a : Comp V) (out : Except Fault (Comp V)) : Prop :=
  match zerosP a.n with
  | .error x => out = .error x
  | .ok _ => ∃ oc, ParCollect (min a.n (windowsLen a)) (pruneCountP dbg F eps a) oc ∧
    match oc with
    | .error x => out = .error x
    | .ok counts =>
      match prunePlanP dbg a (counts ++ List.replicate (a.n - counts.length) 0) with
      | .error x => out = .error x
      | .ok plan => ∃ oe, ParCollect (windowsLen a) (pruneFillP dbg eps a plan.1 plan.2) oe ∧
        match oe with
        | .error x => out = .error x
        | .ok evs => Assemble plan.2 evs (fun ix vs => (⟨a.n, a.m, plan.1, ix, vs⟩ : Comp V)) out

/-- `prune_eps`, `prune_eps_csc` (prune.rs 118–209, 235–326) on the common view. -/
def PrunePtr [Zero V] [BEq V] (dbg : Bool) (F : Nat) (eps : V) (a : Comp V) (out : Except Fault (Comp V)) : Prop :=
  if pruneSkips eps a.data then out = .ok a
  else if a.data.length < smallNnzPrune then out = pruneSmallP dbg F eps a
  else PruneLargePtr dbg F eps a out

/-- `prune_eps` (prune.rs 235–326). -/
def PruneCsrPtr [Zero V] [BEq V] (dbg : Bool) (F : Nat) (eps : V) (a : Csr V) (out : Except Fault (Csr V)) : Prop :=
  ∃ o, PrunePtr dbg F eps a.comp o ∧ out = o.map Comp.toCsr
/-- `prune_eps_csc` (prune.rs 118–209). -/
def PruneCscPtr [Zero V] [BEq V] (dbg : Bool) (F : Nat) (eps : V) (a : Csc V) (out : Except Fault (Csc V)) : Prop :=
  ∃ o, PrunePtr dbg F eps a.comp o ∧ out = o.map Comp.toCsc

end
end Lacuna
