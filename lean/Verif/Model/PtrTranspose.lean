import Verif.Model.PtrConvert
import Verif.Model.Transpose
/-
Transposition of CSR and CSC matrices (linalg/matrix_transpose.rs) at pointer level.

`transpose_csc_f64_i64` (84–313) and `transpose_f64_i64` (383–616) are the same text on the
compressed lines, up to one subexpression in the last loop of strategy A (`nextPosP`).
-/
namespace Lacuna
variable {V : Type}

/-- `a * b` on `usize`. -/
def mulUsize (dbg : Bool) (a b : Nat) : Except Fault Nat :=
  if a * b ≤ usizeMax then .ok (a * b)
  else if dbg then .error .panic else .ok (a * b % 2 ^ 64)

/-- `*v.as_mut_ptr().add(j) = x` for a vector owned by the running thread. -/
def rawSet {α : Type} (v : List α) (j : Nat) (x : α) : Except Fault (List α) := do
  let w ← MutPtr.put ⟨v.length, 0⟩ j x
  pure (v.set w.1 w.2)

/-- `*c.as_mut_ptr().add(j) += 1` (matrix_transpose.rs 119–122, 129, 418–421, 428). -/
def rawBump (dbg : Bool) (c : List Int) (j : Nat) : Except Fault (List Int) := do
  let x ← (asPtr c).get j
  let y ← addI64 dbg x 1
  rawSet c j y

/-- `i64_to_usize(unsafe { *a.indices.get_unchecked(p) })`. -/
def loadIdx (dbg : Bool) (a : Comp V) (p : Nat) : Except Fault Nat := do
  i64ToUsizeP dbg (← getUnchecked a.indices p)

/-- `s`, `e` and `end4 = e - ((e - p) & 3)` with `p = s`
(matrix_transpose.rs 109–112, 174–177, 242–245, 408–411, 474–477, 545–548). -/
def lineEnds (dbg : Bool) (a : Comp V) (i : Nat) : Except Fault (Nat × Nat × Nat) := do
  let s ← i64ToUsizeP dbg (← index a.indptr i)
  let e ← i64ToUsizeP dbg (← index a.indptr (i + 1))
  let len ← subUsize dbg e s
  let end4 ← subUsize dbg e (len &&& 3)
  pure (s, e, end4)

/-! ### Strategy A: one histogram per tile of lines -/

/-- `(a.nrows + tiles - 1) / tiles` (matrix_transpose.rs 98, 397). -/
def tileSizeP (dbg : Bool) (n tiles : Nat) : Except Fault Nat := do
  let x ← addUsize dbg n tiles
  let y ← subUsize dbg x 1
  pure (y / tiles)

/-- `start`, `end` of tile `t` (matrix_transpose.rs 104–105, 167–168, 403–404, 466–467). -/
def tileEndsP (dbg : Bool) (n tile t : Nat) : Except Fault (Nat × Nat) := do
  let start ← mulUsize dbg t tile
  let stop ← addUsize dbg start tile
  pure (start, min stop n)

/-- Unrolled body of the histogram (matrix_transpose.rs 113–125, 412–424). -/
def count4P (dbg : Bool) (a : Comp V) (st : Nat × List Int) : Except Fault (Nat × List Int) := do
  let j0 ← loadIdx dbg a st.1
  let j1 ← loadIdx dbg a (st.1 + 1)
  let j2 ← loadIdx dbg a (st.1 + 2)
  let j3 ← loadIdx dbg a (st.1 + 3)
  let c ← rawBump dbg st.2 j0
  let c ← rawBump dbg c j1
  let c ← rawBump dbg c j2
  let c ← rawBump dbg c j3
  pure (st.1 + 4, c)

/-- Remainder of the histogram (matrix_transpose.rs 126–132, 425–431). -/
def count1P (dbg : Bool) (a : Comp V) (st : Nat × List Int) : Except Fault (Nat × List Int) := do
  let j ← loadIdx dbg a st.1
  let c ← rawBump dbg st.2 j
  pure (st.1 + 1, c)

/-- One line of the histogram (matrix_transpose.rs 109–132, 408–431). -/
def countLineP (dbg : Bool) (F : Nat) (a : Comp V) (c : List Int) (i : Nat) : Except Fault (List Int) := do
  let b ← lineEnds dbg a i
  let st ← untilP F b.2.2 (count4P dbg a) (b.1, c)
  let st ← untilP F b.2.1 (count1P dbg a) st
  pure st.2

/-- Histogram of tile `t` (matrix_transpose.rs 103–136, 402–435). -/
def tileCountsP (dbg : Bool) (F : Nat) (a : Comp V) (tile t : Nat) : Except Fault (List Int) := do
  let b ← tileEndsP dbg a.n tile t
  let c ← zerosP a.m
  (List.range' b.1 (b.2 - b.1)).foldlM (countLineP dbg F a) c

/-- `counts[t][j]`. -/
def cellP (counts : List (List Int)) (t j : Nat) : Except Fault Int := do
  let c ← index counts t
  index c j

/-- `sum += counts[t][j]` for all `t` (matrix_transpose.rs 142–145, 441–444). -/
def sumTilesP (dbg : Bool) (tiles : Nat) (counts : List (List Int)) (j : Nat) : Except Fault Int :=
  (List.range tiles).foldlM (fun s t => do addI64 dbg s (← cellP counts t j)) 0

/-- One step of the global pointers (matrix_transpose.rs 142–146, 441–445). -/
def tilesPtrStep (dbg : Bool) (tiles : Nat) (counts : List (List Int)) (ptr : List Int) (j : Nat) :
    Except Fault (List Int) := do
  let sum ← sumTilesP dbg tiles counts j
  let x ← index ptr j
  let y ← addI64 dbg x sum
  setIdxP ptr (j + 1) y

/-- The global pointers (matrix_transpose.rs 140–147, 439–446). -/
def tilesPtrP (dbg : Bool) (m tiles : Nat) (counts : List (List Int)) : Except Fault (List Int) := do
  let len ← addUsize dbg m 1
  let ptr ← zerosP len
  (List.range m).foldlM (tilesPtrStep dbg tiles counts) ptr

/-- `offsets[t][j] = cur; cur += counts[t][j]` (matrix_transpose.rs 155–156, 454–455). -/
def offsetsStep (dbg : Bool) (counts : List (List Int)) (j : Nat) (st : List (List Int) × Int) (t : Nat) :
    Except Fault (List (List Int) × Int) := do
  let row ← index st.1 t
  let row ← setIdxP row j st.2
  let offs ← setIdxP st.1 t row
  let cur ← addI64 dbg st.2 (← cellP counts t j)
  pure (offs, cur)

/-- Offsets of all tiles for target line `j` (matrix_transpose.rs 152–157, 451–456). -/
def offsetsLine (dbg : Bool) (tiles : Nat) (ptr : List Int) (counts : List (List Int))
    (offs : List (List Int)) (j : Nat) : Except Fault (List (List Int)) := do
  let base ← index ptr j
  let st ← (List.range tiles).foldlM (offsetsStep dbg counts j) (offs, base)
  pure st.1

/-- The offsets (matrix_transpose.rs 150–158, 449–457). -/
def offsetsP (dbg : Bool) (m tiles : Nat) (ptr : List Int) (counts : List (List Int)) :
    Except Fault (List (List Int)) := do
  let row ← zerosP m
  (List.range m).foldlM (offsetsLine dbg tiles ptr counts) (List.replicate tiles row)

/-- What the fill of a tile keeps: its running positions and the stores made so far. -/
abbrev FillA (V : Type) := List Int × Stores V

/-- `std::ptr::write(pi.add(dst), usize_to_i64(i)); std::ptr::write(pv.add(dst), v)`. -/
def putPairP (dbg : Bool) (nnz i dst : Nat) (v : Except Fault V) (s : Stores V) : Except Fault (Stores V) := do
  let q ← MutPtr.add ⟨nnz, 0⟩ dst
  let x ← usizeToI64P dbg i
  let w ← q.write x
  let q ← MutPtr.add ⟨nnz, 0⟩ dst
  let v ← v
  let u ← q.write v
  pure (s.1 ++ [w], s.2 ++ [u])

/-- `i64_to_usize(unsafe { *pos.as_ptr().add(j) })`. -/
def loadPos (dbg : Bool) (pos : List Int) (j : Nat) : Except Fault Nat := do
  i64ToUsizeP dbg (← (asPtr pos).get j)

/-- `*pos.as_mut_ptr().add(j) = usize_to_i64(dst) + 1`. -/
def bumpPos (dbg : Bool) (pos : List Int) (j dst : Nat) : Except Fault (List Int) := do
  let x ← usizeToI64P dbg dst
  let y ← addI64 dbg x 1
  rawSet pos j y

/-- Unrolled body of the fill (matrix_transpose.rs 178–207, 478–508). -/
def fill4P (dbg : Bool) (a : Comp V) (i : Nat) (st : Nat × FillA V) : Except Fault (Nat × FillA V) := do
  let p := st.1
  let j0 ← loadIdx dbg a p
  let j1 ← loadIdx dbg a (p + 1)
  let j2 ← loadIdx dbg a (p + 2)
  let j3 ← loadIdx dbg a (p + 3)
  let dst0 ← loadPos dbg st.2.1 j0
  let dst1 ← loadPos dbg st.2.1 j1
  let dst2 ← loadPos dbg st.2.1 j2
  let dst3 ← loadPos dbg st.2.1 j3
  let pos ← bumpPos dbg st.2.1 j0 dst0
  let pos ← bumpPos dbg pos j1 dst1
  let pos ← bumpPos dbg pos j2 dst2
  let pos ← bumpPos dbg pos j3 dst3
  let nnz := a.data.length
  let s ← putPairP dbg nnz i dst0 (getUnchecked a.data p) st.2.2
  let s ← putPairP dbg nnz i dst1 (getUnchecked a.data (p + 1)) s
  let s ← putPairP dbg nnz i dst2 (getUnchecked a.data (p + 2)) s
  let s ← putPairP dbg nnz i dst3 (getUnchecked a.data (p + 3)) s
  pure (p + 4, pos, s)

/-- The advanced position in the remainder loop: `usize_to_i64(dst) + 1` in the CSC kernel
(line 212), `usize_to_i64(dst + 1)` in the CSR kernel (line 513). -/
def nextPosP (dbg csr : Bool) (dst : Nat) : Except Fault Int :=
  if csr then do usizeToI64P dbg (← addUsize dbg dst 1)
  else do addI64 dbg (← usizeToI64P dbg dst) 1

/-- Remainder of the fill (matrix_transpose.rs 208–219, 509–520). -/
def fill1P (dbg csr : Bool) (a : Comp V) (i : Nat) (st : Nat × FillA V) : Except Fault (Nat × FillA V) := do
  let p := st.1
  let j ← loadIdx dbg a p
  let dst ← loadPos dbg st.2.1 j
  let x ← nextPosP dbg csr dst
  let pos ← rawSet st.2.1 j x
  let s ← putPairP dbg a.data.length i dst (getUnchecked a.data p) st.2.2
  pure (p + 1, pos, s)

/-- One line of the fill (matrix_transpose.rs 174–219, 474–520). -/
def fillLineP (dbg csr : Bool) (F : Nat) (a : Comp V) (st : FillA V) (i : Nat) : Except Fault (FillA V) := do
  let b ← lineEnds dbg a i
  let st ← untilP F b.2.2 (fill4P dbg a i) (b.1, st)
  let st ← untilP F b.2.1 (fill1P dbg csr a i) st
  pure st.2

/-- The fill of tile `t` (matrix_transpose.rs 166–221, 465–522). -/
def fillTileP (dbg csr : Bool) (F : Nat) (a : Comp V) (tile : Nat) (offs : List (List Int)) (t : Nat) :
    Except Fault (Stores V) := do
  let b ← tileEndsP dbg a.n tile t
  if b.1 ≥ b.2 then pure ([], [])
  else
    let pos ← index offs t
    let st ← (List.range' b.1 (b.2 - b.1)).foldlM (fillLineP dbg csr F a) (pos, ([], []))
    pure st.2

/-- Pointers and offsets, computed by one thread. -/
def tilesPlanP (dbg : Bool) (m tiles : Nat) (counts : List (List Int)) :
    Except Fault (List Int × List (List Int)) := do
  let ptr ← tilesPtrP dbg m tiles counts
  let offs ← offsetsP dbg m tiles ptr counts
  pure (ptr, offs)

/-- The parallel fill of strategy A and its result (matrix_transpose.rs 160–223, 459–524). -/
def TransposeAFill [Zero V] (dbg csr : Bool) (F tiles tile : Nat) (a : Comp V)
    (plan : List Int × List (List Int)) (out : Except Fault (Comp V)) : Prop :=
  ∃ oe, ParCollect tiles (fillTileP dbg csr F a tile plan.2) oe ∧
    match oe with
    | .error x => out = .error x
    | .ok evs =>
      Assemble a.data.length evs (fun idx val => (⟨a.m, a.n, plan.1, idx, val⟩ : Comp V)) out

/-- Strategy A (matrix_transpose.rs 96–224, 395–525). -/
def TransposeAPtr [Zero V] (dbg csr : Bool) (F tiles : Nat) (a : Comp V) (out : Except Fault (Comp V)) : Prop :=
  match tileSizeP dbg a.n tiles with
  | .error x => out = .error x
  | .ok tile => ∃ oc, ParCollect tiles (tileCountsP dbg F a tile) oc ∧
    match oc with
    | .error x => out = .error x
    | .ok counts =>
      match tilesPlanP dbg a.m tiles counts with
      | .error x => out = .error x
      | .ok plan => TransposeAFill dbg csr F tiles tile a plan out

/-! ### Strategy B: atomic counters, then one sort per target line -/

/-- Unrolled body of the fill (matrix_transpose.rs 246–269, 549–572). -/
def claim4 (dbg : Bool) (a : Comp V) (i p : Nat) : Task V Unit := do
  let j0 ← loadIdx dbg a p
  let j1 ← loadIdx dbg a (p + 1)
  let j2 ← loadIdx dbg a (p + 2)
  let j3 ← loadIdx dbg a (p + 3)
  let d0 ← Task.claim j0
  let dst0 ← i64ToUsizeP dbg d0
  let d1 ← Task.claim j1
  let dst1 ← i64ToUsizeP dbg d1
  let d2 ← Task.claim j2
  let dst2 ← i64ToUsizeP dbg d2
  let d3 ← Task.claim j3
  let dst3 ← i64ToUsizeP dbg d3
  let nnz := a.data.length
  Task.writeIdx nnz dst0 (usizeToI64P dbg i)
  Task.writeVal nnz dst0 (getUnchecked a.data p)
  Task.writeIdx nnz dst1 (usizeToI64P dbg i)
  Task.writeVal nnz dst1 (getUnchecked a.data (p + 1))
  Task.writeIdx nnz dst2 (usizeToI64P dbg i)
  Task.writeVal nnz dst2 (getUnchecked a.data (p + 2))
  Task.writeIdx nnz dst3 (usizeToI64P dbg i)
  Task.writeVal nnz dst3 (getUnchecked a.data (p + 3))

/-- Remainder of the fill (matrix_transpose.rs 270–280, 573–583). -/
def claim1 (dbg : Bool) (a : Comp V) (i p : Nat) : Task V Unit := do
  let j ← loadIdx dbg a p
  let d ← Task.claim j
  let dst ← i64ToUsizeP dbg d
  Task.writeIdx a.data.length dst (usizeToI64P dbg i)
  Task.writeVal a.data.length dst (getUnchecked a.data p)

/-- One iteration of the fill (matrix_transpose.rs 241–281, 544–584). -/
def claimLine (dbg : Bool) (F : Nat) (a : Comp V) (i : Nat) : Task V Unit := do
  let b ← lineEnds dbg a i
  let p ← Task.stepUntil b.2.2 4 (claim4 dbg a i) F b.1
  let _ ← Task.stepUntil b.2.1 1 (claim1 dbg a i) F p
  pure ()

/-- What the sort of one target line touches: the positions it reads and its stores. -/
abbrev SortEv (V : Type) := List Nat × Stores V

/-- The stores of the sorted pairs, `k` of them already done (matrix_transpose.rs 304–309,
607–612). -/
def storePairsP (nnz s : Nat) : Nat → List (Int × V) → Except Fault (Stores V)
  | _, [] => .ok ([], [])
  | k, (r, v) :: l => do
    let q ← MutPtr.add ⟨nnz, 0⟩ (s + k)
    let w ← q.write r
    let q ← MutPtr.add ⟨nnz, 0⟩ (s + k)
    let u ← q.write v
    let rest ← storePairsP nnz s (k + 1) l
    pure (w :: rest.1, u :: rest.2)

/-- `pairs.push((*pir.add(t), *pvr.add(t)))` (matrix_transpose.rs 298–300, 601–603). -/
def loadPairP (c : Comp V) (t : Nat) : Except Fault (Int × V) := do
  let r ← (asPtr c.indices).get t
  let v ← (asPtr c.data).get t
  pure (r, v)

/-- One iteration of the sort (matrix_transpose.rs 289–310, 592–613).  A pair takes 16 bytes, so
`with_capacity` panics above `isize::MAX / 16` of them. -/
def sortLineP (dbg : Bool) (sort : List (Int × V) → List (Int × V)) (c : Comp V) (j : Nat) :
    Except Fault (SortEv V) := do
  let s ← i64ToUsizeP dbg (← (asPtr c.indptr).get j)
  let e ← i64ToUsizeP dbg (← (asPtr c.indptr).get (j + 1))
  let s1 ← addUsize dbg s 1
  if e ≤ s1 then pure ([], ([], []))
  else if i64Max < 16 * ((e - s : Nat) : Int) then .error .panic
  else
    let pairs ← collectUp (loadPairP c) (e - s) s
    let st ← storePairsP c.data.length s 0 (sort pairs)
    pure (List.range' s (e - s), st)

/-- No line stores to a position that another one reads or stores to. -/
def raceFreeRW (evs : List (SortEv V)) : Prop :=
  raceFree (evs.map Prod.snd) ∧
  evs.Pairwise fun x y =>
    (∀ p ∈ x.1, p ∉ y.2.1.map Prod.fst ∧ p ∉ y.2.2.map Prod.fst) ∧
    (∀ p ∈ y.1, p ∉ x.2.1.map Prod.fst ∧ p ∉ x.2.2.map Prod.fst)

/-- The parallel sort (matrix_transpose.rs 283–310, 586–613).  Without a race every line reads the
buffers as the fill has left them. -/
def SortPassPtr (dbg : Bool) (sort : List (Int × V) → List (Int × V)) (c : Comp V)
    (out : Except Fault (Comp V)) : Prop :=
  ∃ oe, ParCollect c.n (sortLineP dbg sort c) oe ∧
    match oe with
    | .error x => out = .error x
    | .ok evs => (¬ raceFreeRW evs ∧ out = .error .ub) ∨
      (raceFreeRW evs ∧ ∃ wi wv, wi.Perm (evs.flatMap fun x => x.2.1) ∧ wv.Perm (evs.flatMap fun x => x.2.2) ∧
        out = .ok ⟨c.n, c.m, c.indptr, applyWrites c.indices wi, applyWrites c.data wv⟩)

/-- Strategy B (matrix_transpose.rs 227–312, 527–615). -/
def TransposeBPtr [Zero V] (dbg : Bool) (F : Nat) (sort : List (Int × V) → List (Int × V)) (a : Comp V)
    (out : Except Fault (Comp V)) : Prop :=
  ∃ o, AtomicFillPtr dbg (claimLine dbg F a) a o ∧
    match o with
    | .error x => out = .error x
    | .ok c => SortPassPtr dbg sort c out

/-- The kernels (matrix_transpose.rs 84–313, 383–616) with `threads` worker threads.  The memory
estimate is computed in `u128`. -/
def TransposePtr [Zero V] (dbg csr : Bool) (F : Nat) (sort : List (Int × V) → List (Int × V)) (threads : Nat)
    (a : Comp V) (out : Except Fault (Comp V)) : Prop :=
  let tiles := max threads 1
  if tiles * a.m * 8 * 3 ≤ 512 * 1024 * 1024 then TransposeAPtr dbg csr F tiles a out
  else TransposeBPtr dbg F sort a out

/-- `transpose_f64_i64` (matrix_transpose.rs 383–616). -/
def TransposeCsrPtr [Zero V] (dbg : Bool) (F : Nat) (sort : List (Int × V) → List (Int × V)) (threads : Nat)
    (a : Csr V) (out : Except Fault (Csr V)) : Prop :=
  ∃ o, TransposePtr dbg true F sort threads a.comp o ∧ out = o.map Comp.toCsr
/-- `transpose_csc_f64_i64` (matrix_transpose.rs 84–313). -/
def TransposeCscPtr [Zero V] (dbg : Bool) (F : Nat) (sort : List (Int × V) → List (Int × V)) (threads : Nat)
    (a : Csc V) (out : Except Fault (Csc V)) : Prop :=
  ∃ o, TransposePtr dbg false F sort threads a.comp o ∧ out = o.map Comp.toCsc

end Lacuna
