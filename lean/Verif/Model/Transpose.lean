import Verif.Model.Convert
/-
Transposition (linalg/matrix_transpose.rs).

`transpose_f64_i64` (CSR, lines 383–616) and `transpose_csc_f64_i64` (CSC, lines 84–313) are
the same text on the compressed lines; both are modelled once on `Comp`.  `none` stands for
an out-of-bounds access through a raw pointer or `get_unchecked`.
-/
namespace Lacuna
universe u
variable {V : Type u}

/-- Lines of tile `t`: `start = t * tile`, `end = (start + tile).min(n)` with
`tile = (n + tiles - 1) / tiles` (matrix_transpose.rs 98, 104–105, 397, 403–404). -/
def tileLines (n tiles t : Nat) : List Nat :=
  let tile := (n + tiles - 1) / tiles
  List.range' (t * tile) (min (t * tile + tile) n - t * tile)

/-- `*c.as_mut_ptr().add(j) += 1` (matrix_transpose.rs 119–129, 418–428). -/
def bumpAt (c : List Int) (j : Int) : Option (List Int) :=
  let p := i64ToUsize j
  if p < c.length then some (c.set p (c.getD p 0 + 1)) else none

/-- Histogram of one tile (matrix_transpose.rs 101–137, 400–436).  The four-fold unrolled
increments are performed one after the other, so they are the plain loop. -/
def tileCounts (a : Comp V) (lines : List Nat) : Option (List Int) :=
  (lines.flatMap fun i => (a.row i).map Prod.fst).foldlM bumpAt (List.replicate a.m 0)

/-- Global pointers: `indptr[j+1] = indptr[j] + Σ_t counts[t][j]`
(matrix_transpose.rs 140–147, 439–446). -/
def tilesPtr (m : Nat) (counts : List (List Int)) : List Int :=
  0 :: runSum 0 ((List.range m).map fun j => counts.foldl (fun s c => s + c.getD j 0) 0)

/-- `offsets[t]`: entry `j` is `indptr[j] + Σ_{t' < t} counts[t'][j]`
(matrix_transpose.rs 150–158, 449–457). -/
def tileOffsets (m : Nat) (ptr : List Int) (counts : List (List Int)) (t : Nat) : List Int :=
  (List.range m).map fun j => (counts.take t).foldl (fun s c => s + c.getD j 0) (ptr.getD j 0)

/-- Filling from line `i` (matrix_transpose.rs 174–219, 474–520): groups of four read their
four positions before any of them is advanced; the remainder goes one by one. -/
def fillLine (i : Nat) : List Int → List (Int × V) → Option (List Int × List (Nat × (Int × V)))
  | pos, e0 :: e1 :: e2 :: e3 :: rest =>
    pos[i64ToUsize e0.1]?.bind fun d0 => pos[i64ToUsize e1.1]?.bind fun d1 =>
    pos[i64ToUsize e2.1]?.bind fun d2 => pos[i64ToUsize e3.1]?.bind fun d3 =>
    let pos' := (((pos.set (i64ToUsize e0.1) (usizeToI64 (i64ToUsize d0) + 1)).set
      (i64ToUsize e1.1) (usizeToI64 (i64ToUsize d1) + 1)).set
      (i64ToUsize e2.1) (usizeToI64 (i64ToUsize d2) + 1)).set
      (i64ToUsize e3.1) (usizeToI64 (i64ToUsize d3) + 1)
    (fillLine i pos' rest).map fun r => (r.1,
      (i64ToUsize d0, (usizeToI64 i, e0.2)) :: (i64ToUsize d1, (usizeToI64 i, e1.2)) ::
      (i64ToUsize d2, (usizeToI64 i, e2.2)) :: (i64ToUsize d3, (usizeToI64 i, e3.2)) :: r.2)
  | pos, e :: rest =>
    pos[i64ToUsize e.1]?.bind fun d =>
    (fillLine i (pos.set (i64ToUsize e.1) (usizeToI64 (i64ToUsize d) + 1)) rest).map fun r =>
      (r.1, (i64ToUsize d, (usizeToI64 i, e.2)) :: r.2)
  | pos, [] => some (pos, [])

/-- The writes of one tile (matrix_transpose.rs 166–221, 465–522). -/
def fillTile (a : Comp V) : List Int → List Nat → Option (List (Nat × (Int × V)))
  | _, [] => some []
  | pos, i :: lines => (fillLine i pos (a.row i)).bind fun r =>
      (fillTile a r.1 lines).map fun ws => r.2 ++ ws

/-- All possible results of strategy A with the given number of tiles: the single writes of all
tiles in any order (matrix_transpose.rs 96–224, 395–525). -/
def TransposeARun [Zero V] (tiles : Nat) (a r : Comp V) : Prop :=
  ∃ counts, (List.range tiles).mapM (fun t => tileCounts a (tileLines a.n tiles t)) = some counts ∧
  ∃ wss, (List.range tiles).mapM (fun t =>
      fillTile a (tileOffsets a.m (tilesPtr a.m counts) counts t) (tileLines a.n tiles t)) = some wss ∧
  ∃ wi wv, wi.Perm (wss.flatten.map fun w => (w.1, w.2.1)) ∧ wv.Perm (wss.flatten.map fun w => (w.1, w.2.2)) ∧
    r = ⟨a.m, a.n, tilesPtr a.m counts, applyWrites (List.replicate a.data.length 0) wi,
         applyWrites (List.replicate a.data.length 0) wv⟩

/-- A correct `sort_unstable_by(|a, b| a.0.cmp(&b.0))`. -/
def IsPairSort (sort : List (Int × V) → List (Int × V)) : Prop :=
  ∀ l, (sort l).Perm l ∧ (sort l).Pairwise fun x y => x.1 ≤ y.1

/-- The write-backs of the per-line sort (matrix_transpose.rs 283–310, 586–613): a line with at
most one entry is skipped.  Lines read only their own segment, before writing to it. -/
def sortWrites (sort : List (Int × V) → List (Int × V)) (c : Comp V) : List (Nat × (Int × V)) :=
  (List.range c.n).flatMap fun j =>
    if c.ptr (j + 1) ≤ c.ptr j + 1 then [] else lineWrites (c.ptr j) (sort (c.row j))

/-- All possible results of strategy B (matrix_transpose.rs 227–312, 527–615): the atomic
fill in any interleaving, then the per-line sorts with their writes in any order. -/
def TransposeBRun [Zero V] (sort : List (Int × V) → List (Int × V)) (a r : Comp V) : Prop :=
  ∃ c, AtomicFillRun a c ∧
  ∃ wi wv, wi.Perm ((sortWrites sort c).map fun w => (w.1, w.2.1)) ∧
    wv.Perm ((sortWrites sort c).map fun w => (w.1, w.2.2)) ∧
    r = ⟨c.n, c.m, c.indptr, applyWrites c.indices wi, applyWrites c.data wv⟩

/-- Choice of the strategy (matrix_transpose.rs 89–96, 388–395) for `threads` worker threads. -/
def TransposeRun [Zero V] (sort : List (Int × V) → List (Int × V)) (threads : Nat) (a r : Comp V) : Prop :=
  let tiles := max threads 1
  if tiles * a.m * 8 * 3 ≤ 512 * 1024 * 1024 then TransposeARun tiles a r else TransposeBRun sort a r

/-- `transpose_f64_i64` (matrix_transpose.rs 383–616). -/
def TransposeCsrRun [Zero V] (sort : List (Int × V) → List (Int × V)) (threads : Nat) (a r : Csr V) : Prop :=
  TransposeRun sort threads a.comp r.comp
/-- `transpose_csc_f64_i64` (matrix_transpose.rs 84–313). -/
def TransposeCscRun [Zero V] (sort : List (Int × V) → List (Int × V)) (threads : Nat) (a r : Csc V) : Prop :=
  TransposeRun sort threads a.comp r.comp
/-- `transpose_coo_f64_i64` (matrix_transpose.rs 329–335). -/
def transposeCoo (a : Coo V) : Coo V := ⟨a.ncols, a.nrows, a.col, a.row, a.data⟩

end Lacuna
