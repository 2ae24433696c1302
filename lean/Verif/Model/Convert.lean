import Verif.Model.TwoPass
import Verif.Model.Nd
/-
Format conversions (data_type_functions/astype.rs).

`Comp` is the common view of CSR (lines = rows) and CSC (lines = columns); the CSR→CSC and
CSC→CSR functions are the same text with the two dimensions exchanged.
-/
namespace Lacuna
universe u
variable {V : Type u}

/-! ### Counting sort with atomic slot claims -/

/-- `indptr[i64_to_usize(j) + 1] += 1` (astype.rs 52–54, 100–102; matrix_transpose.rs
228–230, 530–532), bounds-checked. -/
def bumpCount (ptr : List Int) (j : Int) : Option (List Int) :=
  let p := i64ToUsize j + 1
  if p < ptr.length then some (ptr.set p (ptr.getD p 0 + 1)) else none

/-- The in-place loop `indptr[j + 1] += indptr[j]` (astype.rs 55–57, 103–105). -/
def runSum (s : Int) : List Int → List Int
  | [] => []
  | x :: xs => (s + x) :: runSum (s + x) xs

/-- Output pointers from the index array (astype.rs 51–57, 99–105). -/
def countPtr (m : Nat) (indices : List Int) : Option (List Int) :=
  (indices.foldlM bumpCount (List.replicate (m + 1) 0)).map (runSum 0)

/-- One step of the fill (astype.rs 66–74, 114–122): line `i` holds entry `(j, v)`; claim
`dst = next[j].fetch_add(1)`, then write `(i, v)` to slot `dst`. -/
def claim (next : List Int) (e : Nat × (Int × V)) : Option (List Int × (Nat × (Int × V))) :=
  let j := i64ToUsize e.2.1
  next[j]?.map fun d => (next.set j (d + 1), (i64ToUsize d, (usizeToI64 e.1, e.2.2)))

/-- The writes resulting from claims made in the given order. -/
def claimAll : List Int → List (Nat × (Int × V)) → Option (List (Nat × (Int × V)))
  | _, [] => some []
  | next, e :: es =>
    (claim next e).bind fun r => (claimAll r.1 es).map fun ws => r.2 :: ws

/-- The order in which the parallel lines execute their claims: any interleaving of the
lines' own sequences. -/
def Interleaving (a : Comp V) (sched : List (Nat × (Int × V))) : Prop :=
  (∀ e ∈ sched, e.1 < a.n) ∧
  ∀ i, i < a.n → sched.filter (fun e => e.1 == i) = (a.row i).map fun e => (i, e)

/-- All possible results of `csr_to_csc_f64_i64` (astype.rs 47–78) and `csc_to_csr_f64_i64`
(astype.rs 95–126), as compressed lines of the target format: any interleaving of the
claims, and any order of the writes that follow them. -/
def AtomicFillRun [Zero V] (a r : Comp V) : Prop :=
  ∃ ptr, countPtr a.m a.indices = some ptr ∧
  ∃ sched ws wi wv, Interleaving a sched ∧ claimAll ptr sched = some ws ∧
    wi.Perm (ws.map fun w => (w.1, w.2.1)) ∧ wv.Perm (ws.map fun w => (w.1, w.2.2)) ∧
    r = ⟨a.m, a.n, ptr, applyWrites (List.replicate a.data.length 0) wi,
         applyWrites (List.replicate a.data.length 0) wv⟩

/-- `csr_to_csc_f64_i64` (astype.rs 47–78). -/
def CsrToCscRun [Zero V] (a : Csr V) (r : Csc V) : Prop := AtomicFillRun a.comp r.comp
/-- `csc_to_csr_f64_i64` (astype.rs 95–126). -/
def CscToCsrRun [Zero V] (a : Csc V) (r : Csr V) : Prop := AtomicFillRun a.comp r.comp

/-! ### CSR / CSC to COO -/

/-- The writes of `csr_to_coo_f64_i64` (astype.rs 151–166) and `csc_to_coo_f64_i64`
(astype.rs 193–206): line `i` writes `(i, index, value)` to the position `p` it reads.
The three arrays are written together here; each is written once per position. -/
def cooWrites (a : Comp V) : List (Nat × (Int × (Int × V))) :=
  (List.range a.n).flatMap fun i => lineWrites (a.ptr i) ((a.row i).map fun e => (usizeToI64 i, e))

/-- All possible results `(lines, indices, data)` of the expansion. -/
def CooFillRun [Zero V] (a : Comp V) (line idx : List Int) (data : List V) : Prop :=
  ∃ w1 w2 w3, w1.Perm ((cooWrites a).map fun w => (w.1, w.2.1)) ∧
    w2.Perm ((cooWrites a).map fun w => (w.1, w.2.2.1)) ∧
    w3.Perm ((cooWrites a).map fun w => (w.1, w.2.2.2)) ∧
    line = applyWrites (List.replicate a.data.length 0) w1 ∧
    idx = applyWrites (List.replicate a.data.length 0) w2 ∧
    data = applyWrites (List.replicate a.data.length 0) w3

/-- `csr_to_coo_f64_i64` (astype.rs 141–168). -/
def CsrToCooRun [Zero V] (a : Csr V) (r : Coo V) : Prop :=
  r.nrows = a.nrows ∧ r.ncols = a.ncols ∧ CooFillRun a.comp r.row r.col r.data
/-- `csc_to_coo_f64_i64` (astype.rs 183–208). -/
def CscToCooRun [Zero V] (a : Csc V) (r : Coo V) : Prop :=
  r.nrows = a.nrows ∧ r.ncols = a.ncols ∧ CooFillRun a.comp r.col r.row r.data

/-! ### COO to CSR / CSC -/

/-- A correct `sort_unstable_by(|x, y| x.0.cmp(&y.0).then(x.1.cmp(&y.1)))`: some permutation
ordered by `(row, col)`; equal keys may come out in any order. -/
def IsTripleSort (sort : List ((Int × Int) × V) → List ((Int × Int) × V)) : Prop :=
  ∀ l, (sort l).Perm l ∧
    (sort l).Pairwise fun x y => x.1.1 < y.1.1 ∨ (x.1.1 = y.1.1 ∧ x.1.2 ≤ y.1.2)

/-- Mutable state of the loop astype.rs 235–261. -/
structure CooSt (V : Type u) where
  indptr : List Int
  indices : List Int
  data : List V
  curRow : Int
  lastCol : Int
  acc : V

/-- `for ptr in indptr.iter_mut().take(hi).skip(lo) { *ptr = v }` (astype.rs 245–247, 271–273). -/
def fillPtr (ptr : List Int) (lo hi : Nat) (v : Int) : List Int :=
  ptr.zipIdx.map fun x => if lo ≤ x.2 ∧ x.2 < hi then v else x.1

/-- `i64::try_from(len).unwrap_or(i64::MAX)` (astype.rs 244, 270). -/
def lenI64 (n : Nat) : Int := if (n : Int) ≤ i64Max then n else i64Max

/-- One iteration (astype.rs 236–261). -/
def cooStep [Add V] (s : CooSt V) (t : (Int × Int) × V) : CooSt V :=
  let r := t.1.1; let c := t.1.2; let v := t.2
  if r ≠ s.curRow then
    let s1 : CooSt V := if s.curRow ≥ 0 ∧ s.lastCol ≥ 0 then
        { s with indices := s.indices ++ [s.lastCol], data := s.data ++ [s.acc] } else s
    { s1 with
      indptr := fillPtr s1.indptr (i64ToUsize (max (s1.curRow + 1) 0)) (i64ToUsize r + 1) (lenI64 s1.indices.length)
      curRow := r, lastCol := c, acc := v }
  else if c = s.lastCol then { s with acc := s.acc + v }
  else { s with indices := s.indices ++ [s.lastCol], data := s.data ++ [s.acc], lastCol := c, acc := v }

/-- `coo_to_csr_f64_i64` (astype.rs 226–279). -/
def cooToCsr [Zero V] [Add V] (sort : List ((Int × Int) × V) → List ((Int × Int) × V)) (a : Coo V) : Csr V :=
  let s := (sort a.triples).foldl cooStep ⟨List.replicate (a.nrows + 1) 0, [], [], -1, -1, 0⟩
  let s1 : CooSt V := if s.curRow ≥ 0 ∧ s.lastCol ≥ 0 then
      { s with indices := s.indices ++ [s.lastCol], data := s.data ++ [s.acc] } else s
  let start := if s1.curRow < 0 then 0 else i64ToUsize (s1.curRow + 1)
  ⟨a.nrows, a.ncols, fillPtr s1.indptr start (a.nrows + 1) (lenI64 s1.indices.length), s1.indices, s1.data⟩

/-- `coo_to_csc_f64_i64` (astype.rs 291–301). -/
def cooToCsc [Zero V] [Add V] (sort : List ((Int × Int) × V) → List ((Int × Int) × V)) (a : Coo V) : Csc V :=
  let t := cooToCsr sort ⟨a.ncols, a.nrows, a.col, a.row, a.data⟩
  ⟨a.nrows, a.ncols, t.indptr, t.indices, t.data⟩

end Lacuna
