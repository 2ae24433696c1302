import Verif.Model.Conc
import Verif.Model.Convert
/-
The conversions CSR ↔ CSC (data_type_functions/astype.rs 47–126) at pointer level: counting
pass, prefix sums, parallel fill that claims positions from atomic counters.
-/
namespace Lacuna
variable {V : Type}

/-- `vec![0i64; n]`: more than `isize::MAX` bytes are a "capacity overflow" panic. -/
def zerosP (n : Nat) : Except Fault (List Int) :=
  if 8 * (n : Int) ≤ i64Max then .ok (List.replicate n 0) else .error .panic

/-- `v[i] = x`. -/
def setIdxP {α : Type} (v : List α) (i : Nat) (x : α) : Except Fault (List α) :=
  if i < v.length then .ok (v.set i x) else .error .panic

/-- `indptr[i64_to_usize(j) + 1] += 1` (astype.rs 53, 101; matrix_transpose.rs 229, 531). -/
def bumpCountP (dbg : Bool) (ptr : List Int) (j : Int) : Except Fault (List Int) := do
  let p ← addUsize dbg (← i64ToUsizeP dbg j) 1
  let x ← index ptr p
  let y ← addI64 dbg x 1
  setIdxP ptr p y

/-- `for j in j0..j0 + k { indptr[j + 1] += indptr[j] }` (astype.rs 55–57, 103–105). -/
def prefixP (dbg : Bool) : Nat → Nat → List Int → Except Fault (List Int)
  | 0, _, ptr => .ok ptr
  | k + 1, j, ptr => do
    let y ← index ptr j
    let x ← index ptr (j + 1)
    let z ← addI64 dbg x y
    prefixP dbg k (j + 1) (← setIdxP ptr (j + 1) z)

/-- The output pointers (astype.rs 51–57, 99–105; matrix_transpose.rs 227–233, 529–535). -/
def countPtrP (dbg : Bool) (m : Nat) (indices : List Int) : Except Fault (List Int) := do
  let len ← addUsize dbg m 1
  let ptr ← zerosP len
  let ptr ← indices.foldlM (bumpCountP dbg) ptr
  prefixP dbg m 0 ptr

/-- One entry of the fill (astype.rs 67–74, 115–122). -/
def convBody (dbg : Bool) (a : Comp V) (i p : Nat) : Task V Unit := do
  let j ← i64ToUsizeP dbg (← index a.indices p)
  let d ← Task.claim j
  let dst ← i64ToUsizeP dbg d
  Task.writeIdx a.data.length dst (usizeToI64P dbg i)
  Task.writeVal a.data.length dst (index a.data p)

/-- One iteration of the fill (astype.rs 63–76, 111–124). -/
def convLine (dbg : Bool) (a : Comp V) (i : Nat) : Task V Unit := do
  let s ← i64ToUsizeP dbg (← index a.indptr i)
  let e ← i64ToUsizeP dbg (← index a.indptr (i + 1))
  Task.forUp (convBody dbg a i) (e - s) s

/-- Counting, then the parallel fill by `line`, then the assembled arrays. -/
def AtomicFillPtr [Zero V] (dbg : Bool) (line : Nat → Task V Unit) (a : Comp V)
    (out : Except Fault (Comp V)) : Prop :=
  match countPtrP dbg a.m a.indices with
  | .error x => out = .error x
  | .ok ptr => ∃ oe, ConcRun ptr ((List.range a.n).map line) (List.replicate a.n ([], [])) oe ∧
    match oe with
    | .error x => out = .error x
    | .ok evs => Assemble a.data.length evs (fun idx val => (⟨a.m, a.n, ptr, idx, val⟩ : Comp V)) out

/-- `csr_to_csc_f64_i64` (astype.rs 47–78). -/
def CsrToCscPtr [Zero V] (dbg : Bool) (a : Csr V) (out : Except Fault (Csc V)) : Prop :=
  ∃ o, AtomicFillPtr dbg (convLine dbg a.comp) a.comp o ∧ out = o.map Comp.toCsc
/-- `csc_to_csr_f64_i64` (astype.rs 95–126). -/
def CscToCsrPtr [Zero V] (dbg : Bool) (a : Csc V) (out : Except Fault (Csr V)) : Prop :=
  ∃ o, AtomicFillPtr dbg (convLine dbg a.comp) a.comp o ∧ out = o.map Comp.toCsr

/-! ### CSR / CSC to COO: every line stores to the positions it reads -/

/-- Stores of one line: rows, columns, values. -/
abbrev CooStores (V : Type) := List (Nat × Int) × List (Nat × Int) × List (Nat × V)

/-- `for p in p0..p0 + k { body }` collecting stores. -/
def collectUp {β : Type} (body : Nat → Except Fault β) : Nat → Nat → Except Fault (List β)
  | 0, _ => .ok []
  | k + 1, p => do
    let x ← body p
    let xs ← collectUp body k (p + 1)
    pure (x :: xs)

/-- One iteration of `csr_to_coo_f64_i64` (astype.rs 151–166); `dst` equals `p`.  The line
number is stored before `a.indices[p]` is checked. -/
def csrCooLine (dbg : Bool) (a : Comp V) (i : Nat) : Except Fault (List ((Nat × Int) × (Nat × Int) × (Nat × V))) := do
  let s ← i64ToUsizeP dbg (← index a.indptr i)
  let e ← i64ToUsizeP dbg (← index a.indptr (i + 1))
  let nnz := a.data.length
  collectUp (fun p => do
    let q ← MutPtr.add ⟨nnz, 0⟩ p
    let r ← q.write (← usizeToI64P dbg i)
    let q ← MutPtr.add ⟨nnz, 0⟩ p
    let c ← q.write (← index a.indices p)
    let q ← MutPtr.add ⟨nnz, 0⟩ p
    let v ← q.write (← index a.data p)
    pure (r, c, v)) (e - s) s

/-- One iteration of `csc_to_coo_f64_i64` (astype.rs 193–206): the index is stored first. -/
def cscCooLine (dbg : Bool) (a : Comp V) (j : Nat) : Except Fault (List ((Nat × Int) × (Nat × Int) × (Nat × V))) := do
  let s ← i64ToUsizeP dbg (← index a.indptr j)
  let e ← i64ToUsizeP dbg (← index a.indptr (j + 1))
  let nnz := a.data.length
  collectUp (fun p => do
    let q ← MutPtr.add ⟨nnz, 0⟩ p
    let c ← q.write (← index a.indices p)
    let q ← MutPtr.add ⟨nnz, 0⟩ p
    let r ← q.write (← usizeToI64P dbg j)
    let q ← MutPtr.add ⟨nnz, 0⟩ p
    let v ← q.write (← index a.data p)
    pure (r, c, v)) (e - s) s

/-- The three buffers after the parallel loop: `(line numbers, indices, values)`. -/
def CooFillPtr [Zero V] (line : Nat → Except Fault (List ((Nat × Int) × (Nat × Int) × (Nat × V))))
    (a : Comp V) (out : Except Fault (List Int × List Int × List V)) : Prop :=
  ∃ oe, ParCollect a.n line oe ∧
    match oe with
    | .error x => out = .error x
    | .ok evs =>
      ∃ o1 o2 o3,
        ParStore (List.replicate a.data.length 0) (evs.map fun l => l.map fun e => e.1) o1 ∧
        ParStore (List.replicate a.data.length 0) (evs.map fun l => l.map fun e => e.2.1) o2 ∧
        ParStore (List.replicate a.data.length 0) (evs.map fun l => l.map fun e => e.2.2) o3 ∧
        out = (do
          let x ← o1
          let y ← o2
          let z ← o3
          pure (x, y, z))

/-- `csr_to_coo_f64_i64` (astype.rs 141–168). -/
def CsrToCooPtr [Zero V] (dbg : Bool) (a : Csr V) (out : Except Fault (Coo V)) : Prop :=
  ∃ o, CooFillPtr (csrCooLine dbg a.comp) a.comp o ∧
    out = o.map fun b => (⟨a.nrows, a.ncols, b.1, b.2.1, b.2.2⟩ : Coo V)
/-- `csc_to_coo_f64_i64` (astype.rs 183–208). -/
def CscToCooPtr [Zero V] (dbg : Bool) (a : Csc V) (out : Except Fault (Coo V)) : Prop :=
  ∃ o, CooFillPtr (cscCooLine dbg a.comp) a.comp o ∧
    out = o.map fun b => (⟨a.nrows, a.ncols, b.2.1, b.1, b.2.2⟩ : Coo V)

end Lacuna
