import Verif.Model.Cumulative
import Verif.Spec.Nd
/-
n-th forward differences (crates/lacuna-kernels/src/manipulation/diff.rs).

The pairs of a row are read as the slice `Comp.row a i` (lines 117–126, 144–153).  `none` is a
panic or an out-of-bounds access.  The two passes run the same row routine, so its result is
computed once; the writes of the second pass happen in any order.
-/
namespace Lacuna
universe u
variable {V : Type u}

/-- Local variables of `combine_sorted_pairs`: the vector, `w`, `last_c`, `acc`. -/
structure MergeSt (V : Type u) where
  buf : List (Nat × V)
  w : Nat
  lastC : Nat
  acc : V

/-- `if acc != 0.0 { pairs[w] = (last_c, acc); w += 1; }` (diff.rs 40–43, 49–52). -/
def MergeSt.emit [BEq V] [Zero V] (s : MergeSt V) : Option (MergeSt V) :=
  if s.acc != 0 then (setAt? s.buf s.w (s.lastC, s.acc)).map fun b => { s with buf := b, w := s.w + 1 }
  else some s

/-- Iteration `k` of the merge (diff.rs 35–47). -/
def MergeSt.step [BEq V] [Zero V] [Add V] (s : MergeSt V) (k : Nat) : Option (MergeSt V) :=
  s.buf[k]?.bind fun e =>
    if e.1 == s.lastC then some { s with acc := s.acc + e.2 }
    else s.emit.map fun s => { s with lastC := e.1, acc := e.2 }

/-- `combine_sorted_pairs` (diff.rs 26–54); the merged pairs overwrite the front of the vector. -/
def combinePairs [BEq V] [Zero V] [Add V] (sort : List (Nat × V) → List (Nat × V)) (pairs : List (Nat × V)) :
    Option (List (Nat × V)) :=
  if pairs.isEmpty then some []
  else
    let p := sort pairs
    p[0]?.bind fun e0 =>
    ((List.range' 1 (p.length - 1)).foldlM MergeSt.step ⟨p, 0, e0.1, e0.2⟩).bind fun s =>
    s.emit.map fun s => s.buf.take s.w

/-- The contributions of the stored pairs to the next difference (diff.rs 74–83). -/
def diffExpand [Neg V] (limit : Nat) (cur : List (Nat × V)) : List (Nat × V) :=
  cur.flatMap fun e =>
    (if e.1 < limit then [(e.1, -e.2)] else []) ++ (if e.1 ≥ 1 then [(e.1 - 1, e.2)] else [])

/-- The loop of `diff_row_pairs` (diff.rs 68–92). -/
def diffRowLoop [BEq V] [Zero V] [Add V] [Neg V] (sort : List (Nat × V) → List (Nat × V)) :
    Nat → List (Nat × V) → Nat → Option (List (Nat × V))
  | 0, cur, _ => some cur
  | n + 1, cur, w =>
    if w = 0 ∨ w = 1 then some []
    else (combinePairs sort (diffExpand (w - 1) cur)).bind fun next =>
      if next.isEmpty then some next else diffRowLoop sort n next (w - 1)

/-- `diff_row_pairs` (diff.rs 60–93). -/
def diffRowPairs [BEq V] [Zero V] [Add V] [Neg V] (sort : List (Nat × V) → List (Nat × V))
    (pairs : List (Nat × V)) (width n : Nat) : Option (List (Nat × V)) :=
  if n = 0 ∨ width = 0 then some (pairs.filter fun e => e.2 != 0) else diffRowLoop sort n pairs width

/-- `i64::try_from(c).expect(..)` (diff.rs 162). -/
def colToI64? (e : Nat × V) : Option (Int × V) := if (e.1 : Int) ≤ i64Max then some ((e.1 : Int), e.2) else none

/-- All possible results of `diff_csr_axis1_f64_i64` (diff.rs 99–170).  `vec![0; total]` of
8-byte elements panics above `isize::MAX` bytes. -/
def DiffCsrAxis1Run [BEq V] [Zero V] [Add V] [Neg V] (sort : List (Nat × V) → List (Nat × V)) (n : Nat)
    (a r : Csr V) : Prop :=
  let outCols := a.ncols - n
  if a.nrows = 0 ∨ outCols = 0 then r = ⟨a.nrows, outCols, List.replicate (a.nrows + 1) 0, [], []⟩
  else ∃ outs, (List.range a.nrows).mapM (fun i =>
        diffRowPairs sort ((a.comp.row i).map fun e => (i64ToUsize e.1, e.2)) a.ncols n) = some outs ∧
    (8 * (outs.map List.length).sum : Int) ≤ i64Max ∧
    ∃ outs', outs.mapM (fun o => o.mapM colToI64?) = some outs' ∧
      TwoPassRun outCols (outs.map List.length) outs' r.comp

/-- All possible results of `diff_csr_axis0_f64_i64` (diff.rs 176–191). -/
def DiffCsrAxis0Run [BEq V] [Zero V] [Add V] [Neg V] (sort : List (Nat × V) → List (Nat × V))
    (tsort : List (Int × V) → List (Int × V)) (threads n : Nat) (a r : Csr V) : Prop :=
  if n = 0 then r = a
  else ∃ t td, TransposeCsrRun tsort threads a t ∧ DiffCsrAxis1Run sort n t td ∧ TransposeCsrRun tsort threads td r

/-- All possible results of `diff_csc_axis1_f64_i64` (diff.rs 196–200). -/
def DiffCscAxis1Run [BEq V] [Zero V] [Add V] [Neg V] (sort : List (Nat × V) → List (Nat × V)) (n : Nat)
    (a r : Csc V) : Prop :=
  ∃ c b, CscToCsrRun a c ∧ DiffCsrAxis1Run sort n c b ∧ CsrToCscRun b r

/-- All possible results of `diff_csc_axis0_f64_i64` (diff.rs 205–209). -/
def DiffCscAxis0Run [BEq V] [Zero V] [Add V] [Neg V] (sort : List (Nat × V) → List (Nat × V))
    (tsort : List (Int × V) → List (Int × V)) (threads n : Nat) (a r : Csc V) : Prop :=
  ∃ c b, CscToCsrRun a c ∧ DiffCsrAxis0Run sort tsort threads n c b ∧ CsrToCscRun b r

/-- All possible results of `diff_coo_axis1_f64_i64` (diff.rs 214–219). -/
def DiffCooAxis1Run [BEq V] [Zero V] [Add V] [Neg V] (sort : List (Nat × V) → List (Nat × V))
    (csort : List ((Int × Int) × V) → List ((Int × Int) × V)) (n : Nat) (a r : Coo V) : Prop :=
  ∃ b, DiffCsrAxis1Run sort n (cooToCsr csort a) b ∧ CsrToCooRun b r

/-- All possible results of `diff_coo_axis0_f64_i64` (diff.rs 224–229). -/
def DiffCooAxis0Run [BEq V] [Zero V] [Add V] [Neg V] (sort : List (Nat × V) → List (Nat × V))
    (tsort : List (Int × V) → List (Int × V)) (csort : List ((Int × Int) × V) → List ((Int × Int) × V))
    (threads n : Nat) (a r : Coo V) : Prop :=
  ∃ b, DiffCsrAxis0Run sort tsort threads n (cooToCsr csort a) b ∧ CsrToCooRun b r

end Lacuna
