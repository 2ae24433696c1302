import Verif.Model.PtrAccum
import Verif.Model.PtrConvert
import Verif.Model.Spmm
/-
Sparse times dense matrix products at pointer level (crates/lacuna-kernels/src/linalg/matmul.rs 680–801,
986–1117).  Nothing is assumed about the arrays or sizes; `b` is row-major with `k` columns.

Not modelled: the vector of tile starts; the additions of a tile to the shared output are recorded as
events (position, value), `wide` vectors are four lanes.
-/
namespace Lacuna
variable {V : Type}

/-- `let c1 = (c0 + tile).min(k); let tk = c1 - c0` (matmul.rs 735–737, 1000–1001, 1080–1081). -/
def tileLenP (dbg : Bool) (k c0 : Nat) : Except Fault Nat := do
  let c1 ← addUsize dbg c0 128
  subUsize dbg (min c1 k) c0

/-- `j * k + c0` (matmul.rs 743, 772, 789, 1012, 1087, 1088). -/
def rowBaseP (dbg : Bool) (j k c0 : Nat) : Except Fault Nat := do
  addUsize dbg (← mulUsize dbg j k) c0

/-- One entry spread over one tile of the output row (matmul.rs 744–765). -/
def spreadColsP [Add V] [Mul V] (dbg : Bool) (F : Nat) (b : List V) (c0 tk base : Nat) (aij : V) (yi : List V) :
    Except Fault (List V) := do
  let s ← untilP F (andNot tk 3) (fun s => do
    let vb ← load4 b (← addUsize dbg base s.1)
    let q ← addUsize dbg c0 s.1
    let vy ← load4 s.2 q
    let y ← store4 s.2 q (vy.1 + vb.1 * aij, vy.2.1 + vb.2.1 * aij, vy.2.2.1 + vb.2.2.1 * aij, vy.2.2.2 + vb.2.2.2 * aij)
    pure (s.1 + 4, y)) (0, yi)
  let s ← untilP F tk (fun s => do
    let bv ← (asPtr b).get (← addUsize dbg base s.1)
    let y ← addIdxP s.2 (← addUsize dbg c0 s.1) (aij * bv)
    pure (s.1 + 1, y)) s
  pure s.2

/-- Entry `p` spread over one tile of the output row (matmul.rs 740–765). -/
def spreadP [Add V] [Mul V] (dbg : Bool) (F : Nat) (a : Comp V) (b : List V) (k c0 tk : Nat) (yi : List V) (p : Nat) :
    Except Fault (List V) := do
  let j ← i64ToUsizeP dbg (← index a.indices p)
  let aij ← index a.data p
  let base ← rowBaseP dbg j k c0
  spreadColsP dbg F b c0 tk base aij yi

/-- Four columns of a row accumulated in a register: entry `p` (matmul.rs 770–778). -/
def lanesAccP [Add V] [Mul V] (dbg : Bool) (a : Comp V) (b : List V) (k c0 c : Nat) (acc : Lanes V) (p : Nat) :
    Except Fault (Lanes V) := do
  let j ← i64ToUsizeP dbg (← index a.indices p)
  let aij ← index a.data p
  let vb ← load4 b (← addUsize dbg (← rowBaseP dbg j k c0) c)
  pure (acc.1 + vb.1 * aij, acc.2.1 + vb.2.1 * aij, acc.2.2.1 + vb.2.2.1 * aij, acc.2.2.2 + vb.2.2.2 * aij)

/-- One column of a row: entry `p` (matmul.rs 788–793). -/
def oneAccP [Add V] [Mul V] (dbg : Bool) (a : Comp V) (b : List V) (k c0 c : Nat) (acc : V) (p : Nat) :
    Except Fault V := do
  let j ← i64ToUsizeP dbg (← index a.indices p)
  let aij ← index a.data p
  let bv ← (asPtr b).get (← addUsize dbg (← rowBaseP dbg j k c0) c)
  pure (acc + aij * bv)

/-- One tile of one row (matmul.rs 734–798); `ps` are the positions `start..end`. -/
def spmmTileP [Zero V] [Add V] [Mul V] (dbg : Bool) (F : Nat) (a : Comp V) (b : List V) (k nnzRow : Nat)
    (ps : List Nat) (yi : List V) (c0 : Nat) : Except Fault (List V) := do
  let tk ← tileLenP dbg k c0
  if nnzRow ≤ 8 ∧ 128 ≤ k then ps.foldlM (spreadP dbg F a b k c0 tk) yi
  else
    let s ← untilP F (andNot tk 3) (fun s => do
      let acc ← ps.foldlM (lanesAccP dbg a b k c0 s.1) (0, 0, 0, 0)
      let y ← store4 s.2 (← addUsize dbg c0 s.1) acc
      pure (s.1 + 4, y)) (0, yi)
    let s ← untilP F tk (fun s => do
      let acc ← ps.foldlM (oneAccP dbg a b k c0 s.1) 0
      let y ← storeIdx s.2 (← addUsize dbg c0 s.1) acc
      pure (s.1 + 1, y)) s
    pure s.2

/-- Row `c.2` with its chunk `c.1` of the output (matmul.rs 727–799). -/
def spmmRowP [Zero V] [Add V] [Mul V] (dbg : Bool) (F : Nat) (a : Comp V) (b : List V) (k : Nat) (c : List V × Nat) :
    Except Fault (List V) := do
  let start ← i64ToUsizeP dbg (← index a.indptr c.2)
  let stop ← i64ToUsizeP dbg (← index a.indptr (c.2 + 1))
  let nnzRow ← subUsize dbg stop start
  (tiles k).foldlM (spmmTileP dbg F a b k nnzRow (List.range' start (stop - start))) c.1

/-- `assert_eq!(b.len(), a.ncols * k)` (matmul.rs 681, 721, 987, 1068). -/
def spmmLenP (dbg : Bool) (ncols k blen : Nat) : Except Fault Unit := do
  let n ← mulUsize dbg ncols k
  if blen = n then pure () else .error .panic

/-- `vec![0.0; nrows * k]`. -/
def spmmZerosP [Zero V] (dbg : Bool) (nrows k : Nat) : Except Fault (List V) := do
  zeroVecP (← mulUsize dbg nrows k)

/-- `spmm_f64_i64` (matmul.rs 720–801); `par_chunks_mut(0)` panics. -/
def SpmmCsrPtr [Zero V] [Add V] [Mul V] (dbg : Bool) (F : Nat) (a : Csr V) (b : List V) (k : Nat)
    (out : Except Fault (List V)) : Prop :=
  match (do spmmLenP dbg a.ncols k b.length; spmmZerosP dbg a.nrows k : Except Fault (List V)) with
  | .error x => out = .error x
  | .ok z =>
    if k = 0 then out = .error .panic
    else ∃ oe, ParEach (chunksOf k z).zipIdx (spmmRowP dbg F a.comp b k) oe ∧ out = oe.map List.flatten

/-- The additions of one entry to the output of length `n` within a tile of length `tk`
(matmul.rs 1013–1037, 1089–1113); `base` is the position of the tile in the output row, `bq` points to
the tile in the row of `b` (in the COO kernel the whole offset is added at once: `src`). -/
def entryEventsP [Mul V] (dbg : Bool) (F n : Nat) (bp : Ptr V) (src base tk : Nat) (aij : V)
    (evs : List (Nat × V)) : Except Fault (List (Nat × V)) := do
  let s ← untilP F (andNot tk 3) (fun s => do
    let q ← bp.add (← addUsize dbg src s.1)
    let vb ← q.read4
    let y ← MutPtr.add ⟨n, 0⟩ (← addUsize dbg base s.1)
    if y.off + 4 ≤ n then
      pure (s.1 + 4, s.2 ++ [(y.off, vb.1 * aij), (y.off + 1, vb.2.1 * aij), (y.off + 2, vb.2.2.1 * aij),
        (y.off + 3, vb.2.2.2 * aij)])
    else .error .ub) (0, evs)
  let s ← untilP F tk (fun s => do
    let bv ← bp.get (← addUsize dbg src s.1)
    let e ← rawEventP n (← addUsize dbg base s.1) (aij * bv)
    pure (s.1 + 1, s.2 ++ [e])) s
  pure s.2

/-- Column `j` of one tile (matmul.rs 1005–1039). -/
def cscColP [Mul V] (dbg : Bool) (F n : Nat) (a : Comp V) (b : List V) (k c0 tk : Nat) (evs : List (Nat × V))
    (j : Nat) : Except Fault (List (Nat × V)) := do
  let s ← i64ToUsizeP dbg (← index a.indptr j)
  let e ← i64ToUsizeP dbg (← index a.indptr (j + 1))
  let bj ← (asPtr b).add (← rowBaseP dbg j k c0)
  (List.range' s (e - s)).foldlM (fun evs p => do
    let i ← i64ToUsizeP dbg (← index a.indices p)
    let aij ← index a.data p
    let base ← rowBaseP dbg i k c0
    entryEventsP dbg F n bj 0 base tk aij evs) evs

/-- The task of one tile (matmul.rs 999–1040). -/
def cscTileP [Mul V] (dbg : Bool) (F n : Nat) (a : Comp V) (b : List V) (k c0 : Nat) :
    Except Fault (List (Nat × V)) := do
  let tk ← tileLenP dbg k c0
  (List.range a.n).foldlM (cscColP dbg F n a b k c0 tk) []

/-- The parallel loop over the tiles, all adding into the same zero-filled output `z`.  An addition
reads and writes its position, so two tasks must not touch the same one; then their order is
irrelevant. -/
def TilesPtr [Zero V] [Add V] (k : Nat) (z : List V) (task : Nat → Except Fault (List (Nat × V)))
    (out : Except Fault (List V)) : Prop :=
  ∃ oe, ParEach (tiles k) task oe ∧
    match oe with
    | .error x => out = .error x
    | .ok evs => (¬ raceFree1 evs ∧ out = .error .ub) ∨ (raceFree1 evs ∧ out = .ok (addAll z evs.flatten))

/-- `spmm_csc_f64_i64` (matmul.rs 986–1042). -/
def SpmmCscPtr [Zero V] [Add V] [Mul V] (dbg : Bool) (F : Nat) (a : Csc V) (b : List V) (k : Nat)
    (out : Except Fault (List V)) : Prop :=
  match (do spmmLenP dbg a.ncols k b.length; spmmZerosP dbg a.nrows k : Except Fault (List V)) with
  | .error x => out = .error x
  | .ok z =>
    if a.nrows = 0 ∨ a.ncols = 0 ∨ k = 0 then out = .ok z
    else TilesPtr k z (cscTileP dbg F z.length a.comp b k) out

/-- Entry `p` of one tile (matmul.rs 1084–1113). -/
def cooEntryP [Mul V] (dbg : Bool) (F n : Nat) (a : Coo V) (b : List V) (k c0 tk : Nat) (evs : List (Nat × V))
    (p : Nat) : Except Fault (List (Nat × V)) := do
  let i ← i64ToUsizeP dbg (← index a.row p)
  let j ← i64ToUsizeP dbg (← index a.col p)
  let aij ← index a.data p
  let dst ← rowBaseP dbg i k c0
  let src ← rowBaseP dbg j k c0
  entryEventsP dbg F n (asPtr b) src dst tk aij evs

/-- The task of one tile (matmul.rs 1079–1114). -/
def cooTileP [Mul V] (dbg : Bool) (F n : Nat) (a : Coo V) (b : List V) (k c0 : Nat) :
    Except Fault (List (Nat × V)) := do
  let tk ← tileLenP dbg k c0
  (List.range a.data.length).foldlM (cooEntryP dbg F n a b k c0 tk) []

/-- `spmm_coo_f64_i64` (matmul.rs 1067–1117). -/
def SpmmCooPtr [Zero V] [Add V] [Mul V] (dbg : Bool) (F : Nat) (a : Coo V) (b : List V) (k : Nat)
    (out : Except Fault (List V)) : Prop :=
  match (do spmmLenP dbg a.ncols k b.length; spmmZerosP dbg a.nrows k : Except Fault (List V)) with
  | .error x => out = .error x
  | .ok z =>
    if a.nrows = 0 ∨ k = 0 ∨ a.data.length = 0 then out = .ok z
    else TilesPtr k z (cooTileP dbg F z.length a b k) out

/-- `spmm_auto_f64_i64` (matmul.rs 680–696). -/
def SpmmAutoPtr [Zero V] [Add V] [Mul V] (dbg : Bool) (F : Nat) (a : Csr V) (b : List V) (k : Nat)
    (out : Except Fault (List V)) : Prop :=
  match spmmLenP dbg a.ncols k b.length with
  | .error x => out = .error x
  | .ok _ =>
    if a.ncols = 0 ∨ a.nrows = 0 ∨ k = 0 ∨ a.data.length = 0 then out = spmmZerosP dbg a.nrows k
    else if 128 ≤ k ∨ (64 ≤ k ∧ 8 ≤ a.data.length / max a.ncols 1) then
      ∃ oc, CsrToCscPtr dbg a oc ∧
        match oc with
        | .error x => out = .error x
        | .ok c => SpmmCscPtr dbg F c b k out
    else SpmmCsrPtr dbg F a b k out

end Lacuna
