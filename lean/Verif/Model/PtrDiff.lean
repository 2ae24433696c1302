import Verif.Model.PtrTranspose
import Verif.Model.PtrConvert
import Verif.Model.Diff
/-
n-th forward differences (crates/lacuna-kernels/src/manipulation/diff.rs) at pointer level.  The
routine on the pairs of a row (`combine_sorted_pairs`, `diff_row_pairs`) is safe code on vectors; it
is taken from `Model/Diff` with its allocations added.  Nothing is assumed about the arrays.
-/
namespace Lacuna
variable {V : Type}

/-- `Vec::with_capacity(n)` for elements of `sz` bytes: more than `isize::MAX` bytes are a panic. -/
def withCapP (sz n : Nat) : Except Fault Unit :=
  if (sz : Int) * n ≤ i64Max then .ok () else .error .panic

/-- `i64::try_from(x).expect(..)` (diff.rs 135, 162). -/
def tryI64P (x : Nat) : Except Fault Int := if (x : Int) ≤ i64Max then .ok x else .error .panic

/-- `row_pairs.push((c, v)); p += 1` (diff.rs 122–125, 149–152). -/
def pushPairP (dbg : Bool) (a : Comp V) (s : Nat × List (Nat × V)) : Except Fault (Nat × List (Nat × V)) := do
  let c ← i64ToUsizeP dbg (← getUnchecked a.indices s.1)
  let v ← getUnchecked a.data s.1
  pure (s.1 + 1, s.2 ++ [(c, v)])

/-- The pairs of row `i` (diff.rs 117–126, 144–153). -/
def rowPairsP (dbg : Bool) (F : Nat) (a : Comp V) (i : Nat) : Except Fault (List (Nat × V)) := do
  let s ← i64ToUsizeP dbg (← index a.indptr i)
  let e ← i64ToUsizeP dbg (← index a.indptr (i + 1))
  withCapP 16 (← subUsize dbg e s)
  let st ← untilP F e (pushPairP dbg a) (s, [])
  pure st.2

/-- A panic of the safe code. -/
def ofOptionP {α : Type} : Option α → Except Fault α
  | some x => .ok x
  | none => .error .panic

/-- The loop of `diff_row_pairs` (diff.rs 68–92) with its allocation (line 73). -/
def diffRowLoopP [BEq V] [Zero V] [Add V] [Neg V] (dbg : Bool) (sort : List (Nat × V) → List (Nat × V)) :
    Nat → List (Nat × V) → Nat → Except Fault (List (Nat × V))
  | 0, cur, _ => .ok cur
  | n + 1, cur, w =>
    if w = 0 ∨ w = 1 then .ok []
    else do
      withCapP 16 (← mulUsize dbg cur.length 2)
      let next ← ofOptionP (combinePairs sort (diffExpand (w - 1) cur))
      if next.isEmpty then pure next else diffRowLoopP dbg sort n next (w - 1)

/-- `diff_row_pairs` (diff.rs 60–93). -/
def diffRowPairsP [BEq V] [Zero V] [Add V] [Neg V] (dbg : Bool) (sort : List (Nat × V) → List (Nat × V))
    (pairs : List (Nat × V)) (width n : Nat) : Except Fault (List (Nat × V)) :=
  if n = 0 ∨ width = 0 then .ok (pairs.filter fun e => e.2 != 0) else diffRowLoopP dbg sort n pairs width

/-- Row `i` of the result as pairs (diff.rs 117–127, 144–154). -/
def diffRowP [BEq V] [Zero V] [Add V] [Neg V] (dbg : Bool) (F : Nat) (sort : List (Nat × V) → List (Nat × V))
    (n : Nat) (a : Comp V) (i : Nat) : Except Fault (List (Nat × V)) := do
  diffRowPairsP dbg sort (← rowPairsP dbg F a i) a.m n

/-- `indptr[i + 1] = indptr[i] + i64::try_from(counts[i]).expect(..)` (diff.rs 134–137), from the
value `s` of `indptr[i]` on. -/
def tryPtrP (dbg : Bool) (s : Int) : List Nat → Except Fault (List Int)
  | [] => pure [s]
  | c :: cs => do
    let t ← addI64 dbg s (← tryI64P c)
    let rest ← tryPtrP dbg t cs
    pure (s :: rest)

/-- Pointers and size of the result (diff.rs 133–140). -/
def diffPlanP (dbg : Bool) (n : Nat) (counts : List Nat) : Except Fault (List Int × Nat) := do
  let _ ← zerosP (← addUsize dbg n 1)
  let ptr ← tryPtrP dbg 0 counts
  let total ← i64ToUsizeP dbg (← index ptr n)
  let _ ← zerosP total
  pure (ptr, total)

/-- The stores of one pair (diff.rs 156–165). -/
def diffPutP (dbg : Bool) (total start : Nat) (e : (Nat × V) × Nat) : Except Fault ((Nat × Int) × (Nat × V)) := do
  let q ← MutPtr.add ⟨total, 0⟩ (← addUsize dbg start e.2)
  let w ← q.write (← tryI64P e.1.1)
  let q ← MutPtr.add ⟨total, 0⟩ (← addUsize dbg start e.2)
  let u ← q.write e.1.2
  pure (w, u)

/-- One iteration of the fill (diff.rs 143–167). -/
def diffFillP (dbg : Bool) (row : Nat → Except Fault (List (Nat × V))) (ptr : List Int) (total i : Nat) :
    Except Fault (Stores V) := do
  let out ← row i
  let start ← i64ToUsizeP dbg (← index ptr i)
  let evs ← out.zipIdx.mapM (diffPutP dbg total start)
  pure (evs.map Prod.fst, evs.map Prod.snd)

/-- Counting pass, pointers, fill (diff.rs 113–169) for the row routine `row`. -/
def DiffPassesPtr [Zero V] (dbg : Bool) (row : Nat → Except Fault (List (Nat × V))) (n m : Nat)
    (out : Except Fault (Comp V)) : Prop :=
  ∃ oc, ParCollect n (fun i => (row i).map List.length) oc ∧
    match oc with
    | .error x => out = .error x
    | .ok counts =>
      match diffPlanP dbg n counts with
      | .error x => out = .error x
      | .ok plan => ∃ oe, ParCollect n (diffFillP dbg row plan.1 plan.2) oe ∧
        match oe with
        | .error x => out = .error x
        | .ok evs => Assemble plan.2 evs (fun ix vs => (⟨n, m, plan.1, ix, vs⟩ : Comp V)) out

/-- `diff_csr_axis1_f64_i64` (diff.rs 99–170). -/
def DiffCsrAxis1Ptr [BEq V] [Zero V] [Add V] [Neg V] (dbg : Bool) (F : Nat)
    (sort : List (Nat × V) → List (Nat × V)) (n : Nat) (a : Csr V) (out : Except Fault (Csr V)) : Prop :=
  let outCols := a.ncols - n
  if a.nrows = 0 ∨ outCols = 0 then
    out = (do
      let ptr ← zerosP (← addUsize dbg a.nrows 1)
      pure (⟨a.nrows, outCols, ptr, [], []⟩ : Csr V))
  else ∃ o, DiffPassesPtr dbg (diffRowP dbg F sort n a.comp) a.nrows outCols o ∧ out = o.map Comp.toCsr

/-- `diff_csr_axis0_f64_i64` (diff.rs 176–191). -/
def DiffCsrAxis0Ptr [BEq V] [Zero V] [Add V] [Neg V] (dbg : Bool) (F : Nat)
    (sort : List (Nat × V) → List (Nat × V)) (tsort : List (Int × V) → List (Int × V)) (threads n : Nat)
    (a : Csr V) (out : Except Fault (Csr V)) : Prop :=
  if n = 0 then out = .ok a
  else ∃ ot, TransposeCsrPtr dbg F tsort threads a ot ∧
    match ot with
    | .error x => out = .error x
    | .ok t => ∃ od, DiffCsrAxis1Ptr dbg F sort n t od ∧
      match od with
      | .error x => out = .error x
      | .ok d => TransposeCsrPtr dbg F tsort threads d out

/-- The axis routines for CSC: convert, apply `f`, convert back (diff.rs 196–209). -/
def DiffCscPtr [Zero V] (dbg : Bool) (f : Csr V → Except Fault (Csr V) → Prop) (a : Csc V)
    (out : Except Fault (Csc V)) : Prop :=
  ∃ oc, CscToCsrPtr dbg a oc ∧
    match oc with
    | .error x => out = .error x
    | .ok c => ∃ ob, f c ob ∧
      match ob with
      | .error x => out = .error x
      | .ok b => CsrToCscPtr dbg b out

end Lacuna
