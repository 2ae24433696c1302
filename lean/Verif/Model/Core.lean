/-
Model of the storage formats and their constructors (lacuna-core).

`usize` is `Nat`, `i64` is `Int`, `f64` is an arbitrary value type `V`.
`Result<_, String>` is `Except String _`.
-/
namespace Lacuna

universe u

/-- `usize::MAX` on a 64-bit target. -/
def usizeMax : Nat := 2 ^ 64 - 1

/-- `i64::MAX`. -/
def i64Max : Int := 2 ^ 63 - 1

/-- `usize::try_from(x : i64).ok()` on a 64-bit target. -/
def toUsize? (x : Int) : Option Nat := if 0 ≤ x then some x.toNat else none

/-- `struct Csr<T, I>` — crates/lacuna-core/src/csr.rs 24–30. -/
structure Csr (V : Type u) where
  nrows : Nat
  ncols : Nat
  indptr : List Int
  indices : List Int
  data : List V
deriving DecidableEq, Repr

/-- `struct Csc<T, I>` — crates/lacuna-core/src/csc.rs 24–30. -/
structure Csc (V : Type u) where
  nrows : Nat
  ncols : Nat
  indptr : List Int
  indices : List Int
  data : List V
deriving DecidableEq, Repr

/-- `struct Coo<T, I>` — crates/lacuna-core/src/coo.rs 22–28. -/
structure Coo (V : Type u) where
  nrows : Nat
  ncols : Nat
  row : List Int
  col : List Int
  data : List V
deriving DecidableEq, Repr

/-- `struct CooNd<T, I>` — crates/lacuna-core/src/coo.rs 131–135. -/
structure CooNd (V : Type u) where
  shape : List Nat
  indices : List Int
  data : List V
deriving DecidableEq, Repr

variable {V : Type u}

/-- The pairs visited by `indptr.iter().zip(indptr.iter().skip(1))` (csr.rs 92, 101–105). -/
def ptrPairs (indptr : List Int) : List (Int × Int) := indptr.zip (indptr.drop 1)

/-- Loop csr.rs 92–99 / csc.rs 92–99: pointer is non-decreasing and non-negative. -/
def checkPtrPairs : List (Int × Int) → Except String Unit
  | [] => .ok ()
  | (p, q) :: rest =>
    if p > q then .error "indptr must be non-decreasing"
    else if p < 0 || q < 0 then .error "indptr must be non-negative"
    else checkPtrPairs rest

/-- `usize::try_from(j).map_or(true, |col| col >= ncols)` — csr.rs 126, csc.rs 126. -/
def outOfBounds (bound : Nat) (j : Int) : Bool :=
  match toUsize? j with
  | none => true
  | some c => decide (c ≥ bound)

/-- `usize::try_from(i).is_ok_and(|ii| ii < bound)` — coo.rs 83–84, 198. -/
def okBelow (bound : Nat) (i : Int) : Bool :=
  match toUsize? i with
  | some ii => decide (ii < bound)
  | none => false

/-- Loop csr.rs 125–136 / csc.rs 125–136 over the indices of one row (column);
`prev` is the mutable `prev_col` (`prev_row`). -/
def checkIdxRow (bound : Nat) : Int → List Int → Except String Unit
  | _, [] => .ok ()
  | prev, j :: rest =>
    if j < 0 || outOfBounds bound j then .error "index out of bounds"
    else if j ≤ prev then .error "indices must be strictly increasing"
    else checkIdxRow bound j rest

/-- `indices.get(start..end)`: `None` when the range is not inside the slice. -/
def sliceGet? (l : List Int) (s e : Nat) : Option (List Int) :=
  if s ≤ e ∧ e ≤ l.length then some ((l.drop s).take (e - s)) else none

/-- Loop csr.rs 101–137 / csc.rs 101–137: per-row (per-column) structure. -/
def checkRows (bound nnz : Nat) (indices : List Int) : List (Int × Int) → Except String Unit
  | [] => .ok ()
  | (s, e) :: rest =>
    match toUsize? s, toUsize? e with
    | some start, some stop =>
      if stop < start then .error "indptr must be non-decreasing per row"
      else if start > nnz || stop > nnz then .error "indptr elements must be within [0, nnz]"
      else match sliceGet? indices start stop with
        | none => .error "indptr elements must be within [0, nnz]"
        | some row =>
          match checkIdxRow bound (-1) row with
          | .error m => .error m
          | .ok () => checkRows bound nnz indices rest
    | _, _ => .error "indptr elements must be within [0, nnz]"

/-- The common body of `Csr::from_parts` (csr.rs 71–138) and `Csc::from_parts`
(csc.rs 71–138): `major` is the number of pointers minus one, `minor` the bound on
the stored indices.  The two Rust bodies are identical up to exchanging
`nrows`/`ncols` and the words in the messages (checked by `diff`). -/
def checkParts (major minor : Nat) (indptr indices : List Int) (data : List V)
    (check : Bool) : Except String Unit :=
  if usizeMax < major + 1 then .error "overflow when adding 1"
  else if indptr.length ≠ major + 1 then .error "indptr length"
  else if indices.length ≠ data.length then .error "indices and data must have equal length"
  else
    let nnz := indices.length
    if toUsize? (indptr.getLast?.getD 0) ≠ some nnz then
      .error "indptr last element must equal nnz"
    else if indptr.head?.getD 0 ≠ 0 then .error "indptr first element must be 0"
    else if check then
      match checkPtrPairs (ptrPairs indptr) with
      | .error m => .error m
      | .ok () => checkRows minor nnz indices ((ptrPairs indptr).take major)
    else .ok ()

/-- `Csr::from_parts` — csr.rs 63–146. -/
def Csr.fromParts (nrows ncols : Nat) (indptr indices : List Int) (data : List V)
    (check : Bool) : Except String (Csr V) :=
  match checkParts nrows ncols indptr indices data check with
  | .error m => .error m
  | .ok () => .ok ⟨nrows, ncols, indptr, indices, data⟩

/-- `Csc::from_parts` — csc.rs 63–146. -/
def Csc.fromParts (nrows ncols : Nat) (indptr indices : List Int) (data : List V)
    (check : Bool) : Except String (Csc V) :=
  match checkParts ncols nrows indptr indices data check with
  | .error m => .error m
  | .ok () => .ok ⟨nrows, ncols, indptr, indices, data⟩

/-- Loop coo.rs 75–88 (the parallel vectors are walked together). -/
def checkCooIdx (nrows ncols : Nat) : List (Int × Int) → Except String Unit
  | [] => .ok ()
  | (i, j) :: rest =>
    if i < 0 || j < 0 then .error "indices must be non-negative"
    else
      if !okBelow nrows i || !okBelow ncols j then .error "indices out of bounds"
      else checkCooIdx nrows ncols rest

/-- `Coo::from_parts` — coo.rs 61–97. -/
def Coo.fromParts (nrows ncols : Nat) (row col : List Int) (data : List V)
    (check : Bool) : Except String (Coo V) :=
  if row.length ≠ data.length ∨ col.length ≠ data.length then
    .error "row/col/data must have equal length"
  else if check then
    match checkCooIdx nrows ncols (row.zip col) with
    | .error m => .error m
    | .ok () => .ok ⟨nrows, ncols, row, col, data⟩
  else .ok ⟨nrows, ncols, row, col, data⟩

/-- Loop coo.rs 190–203.  `k` runs over the entries; `indices[k * ndim + d]` for
`d in 0..ndim` are visited in order, `shape[d]` is the bound.  A list is consumed
`ndim` elements at a time; `dims` is what remains of the shape for the current entry. -/
def checkNdIdx (shape : List Nat) : List Nat → List Int → Except String Unit
  | _, [] => .ok ()
  | dims, idx :: rest =>
    match dims with
    | [] =>
      match shape with
      | [] => .error "unreachable: empty shape"
      | s :: ss =>
        if idx < 0 then .error "indices must be non-negative"
        else if okBelow s idx then checkNdIdx shape ss rest
        else .error "index out of bounds"
    | s :: ss =>
      if idx < 0 then .error "indices must be non-negative"
      else if okBelow s idx then checkNdIdx shape ss rest
      else .error "index out of bounds"

/-- `usize::checked_mul`. -/
def checkedMul (a b : Nat) : Option Nat := if a * b ≤ usizeMax then some (a * b) else none

/-- `CooNd::from_parts` — coo.rs 166–210. -/
def CooNd.fromParts (shape : List Nat) (indices : List Int) (data : List V)
    (check : Bool) : Except String (CooNd V) :=
  if shape.length = 0 then .error "shape must be non-empty"
  else if data.isEmpty && !indices.isEmpty then
    .error "indices must be empty when data is empty"
  else match checkedMul data.length shape.length with
    | none => .error "indices length overflow"
    | some expected =>
      if indices.length ≠ expected then .error "indices length must be nnz * ndim"
      else if check then
        match checkNdIdx shape shape indices with
        | .error m => .error m
        | .ok () => .ok ⟨shape, indices, data⟩
      else .ok ⟨shape, indices, data⟩

end Lacuna
