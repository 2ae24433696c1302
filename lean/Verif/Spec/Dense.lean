import Verif.Model.Core
/-
Specification layer: what a stored matrix means, independently of any kernel.

A CSR and a CSC matrix are both a "compressed" matrix: `n` major lines (rows for
CSR, columns for CSC), each a segment of `(index, value)` pairs with indices below
`m`.  `Comp` is that common view; it contains exactly the arrays of the Rust structs.
-/
namespace Lacuna

universe u

/-- The arrays of a `Csr` / `Csc`, with major dimension `n` and minor dimension `m`. -/
structure Comp (V : Type u) where
  n : Nat
  m : Nat
  indptr : List Int
  indices : List Int
  data : List V
deriving DecidableEq, Repr

variable {V : Type u}

/-- A CSR matrix seen as compressed rows. -/
def Csr.comp (a : Csr V) : Comp V := ⟨a.nrows, a.ncols, a.indptr, a.indices, a.data⟩
/-- A CSC matrix seen as compressed columns. -/
def Csc.comp (a : Csc V) : Comp V := ⟨a.ncols, a.nrows, a.indptr, a.indices, a.data⟩
/-- Compressed rows as a CSR matrix. -/
def Comp.toCsr (a : Comp V) : Csr V := ⟨a.n, a.m, a.indptr, a.indices, a.data⟩
/-- Compressed columns as a CSC matrix. -/
def Comp.toCsc (a : Comp V) : Csc V := ⟨a.m, a.n, a.indptr, a.indices, a.data⟩

namespace Comp

/-- The pointer of line `i` as a position. -/
def ptr (a : Comp V) (i : Nat) : Nat := (a.indptr.getD i 0).toNat

/-- The stored `(index, value)` pairs in storage order. -/
def entries (a : Comp V) : List (Int × V) := a.indices.zip a.data

/-- The stored pairs of line `i`: positions `ptr i ≤ p < ptr (i+1)`. -/
def row (a : Comp V) (i : Nat) : List (Int × V) :=
  (a.entries.drop (a.ptr i)).take (a.ptr (i + 1) - a.ptr i)

/-- Well-formedness: the documented invariants of the formats
(csr.rs 11–22 and the `# Safety` list 150–156).
`i64` records that stored indices are machine integers (automatic in Rust). -/
structure WF (a : Comp V) : Prop where
  ptr_length : a.indptr.length = a.n + 1
  data_length : a.data.length = a.indices.length
  ptr_first : a.indptr.getD 0 0 = 0
  ptr_last : a.indptr.getD a.n 0 = a.indices.length
  ptr_mono : ∀ i, i < a.n → a.indptr.getD i 0 ≤ a.indptr.getD (i + 1) 0
  bounds : ∀ j ∈ a.indices, 0 ≤ j ∧ j < a.m
  sorted : ∀ i, i < a.n → ∀ p q, a.ptr i ≤ p → p < q → q < a.ptr (i + 1) →
    a.indices.getD p 0 < a.indices.getD q 0
  i64 : ∀ j ∈ a.indices, j ≤ i64Max

/-- Well-formedness without the ordering of the lines: every invariant of `WF` except that
the indices of a line increase (they may be in any order and repeat). -/
structure WFU (a : Comp V) : Prop where
  ptr_length : a.indptr.length = a.n + 1
  data_length : a.data.length = a.indices.length
  ptr_first : a.indptr.getD 0 0 = 0
  ptr_last : a.indptr.getD a.n 0 = a.indices.length
  ptr_mono : ∀ i, i < a.n → a.indptr.getD i 0 ≤ a.indptr.getD (i + 1) 0
  bounds : ∀ j ∈ a.indices, 0 ≤ j ∧ j < a.m
  i64 : ∀ j ∈ a.indices, j ≤ i64Max

/-- Line numbers and positions are representable as `i64`.  Automatic in Rust: `indptr` and
`data` are vectors of 8-byte elements, and a vector has at most `isize::MAX` bytes. -/
def Fits (a : Comp V) : Prop := (a.n : Int) ≤ i64Max ∧ (a.data.length : Int) ≤ i64Max

/-- The value stored at line `i`, index `j` (first match), if any. -/
def stored (a : Comp V) (i j : Nat) : Option V :=
  ((a.row i).find? fun e => e.1 == (j : Int)).map Prod.snd

/-- The mathematical element at line `i`, index `j`: the sum of everything stored
there (so duplicates accumulate and missing entries are zero). -/
def val [Add V] [Zero V] (a : Comp V) (i j : Nat) : V :=
  (((a.row i).filter fun e => e.1 == (j : Int)).map Prod.snd).sum

/-- No line stores an index twice. -/
def NoRep (a : Comp V) : Prop := ∀ i, ((a.row i).map Prod.fst).Nodup

/-- No stored value is (IEEE-)equal to zero. -/
def NoZeros [BEq V] [Zero V] (a : Comp V) : Prop := ∀ v ∈ a.data, (v == 0) = false

end Comp

/-- Well-formed CSR. -/
def Csr.WF (a : Csr V) : Prop := a.comp.WF
/-- Well-formed CSC. -/
def Csc.WF (a : Csc V) : Prop := a.comp.WF
/-- CSR that may be unsorted and contain duplicates. -/
def Csr.WFU (a : Csr V) : Prop := a.comp.WFU
/-- CSC that may be unsorted and contain duplicates. -/
def Csc.WFU (a : Csc V) : Prop := a.comp.WFU
/-- Element `(i, j)` of a CSR matrix. -/
def Csr.val [Add V] [Zero V] (a : Csr V) (i j : Nat) : V := a.comp.val i j
/-- Element `(i, j)` of a CSC matrix (line `j`, index `i`). -/
def Csc.val [Add V] [Zero V] (a : Csc V) (i j : Nat) : V := a.comp.val j i
/-- Entry stored at `(i, j)` of a CSR matrix. -/
def Csr.stored (a : Csr V) (i j : Nat) : Option V := a.comp.stored i j
/-- Entry stored at `(i, j)` of a CSC matrix. -/
def Csc.stored (a : Csc V) (i j : Nat) : Option V := a.comp.stored j i

/-- Well-formed COO: equal lengths and in-bounds coordinates (duplicates allowed). -/
structure Coo.WF (a : Coo V) : Prop where
  row_length : a.row.length = a.data.length
  col_length : a.col.length = a.data.length
  row_bounds : ∀ i ∈ a.row, 0 ≤ i ∧ i < a.nrows
  col_bounds : ∀ j ∈ a.col, 0 ≤ j ∧ j < a.ncols

/-- The stored coordinates are machine integers (automatic in Rust). -/
def Coo.I64 (a : Coo V) : Prop := (∀ i ∈ a.row, i ≤ i64Max) ∧ (∀ j ∈ a.col, j ≤ i64Max)

/-- The stored triples of a COO matrix. -/
def Coo.triples (a : Coo V) : List ((Int × Int) × V) := (a.row.zip a.col).zip a.data

/-- Element `(i, j)` of a COO matrix: the sum of the triples at `(i, j)`. -/
def Coo.val [Add V] [Zero V] (a : Coo V) (i j : Nat) : V :=
  ((a.triples.filter fun t => t.1.1 == (i : Int) && t.1.2 == (j : Int)).map Prod.snd).sum

/-- Component `d` of the `k`-th coordinate of an N-D COO array. -/
def CooNd.coord (a : CooNd V) (k d : Nat) : Int := a.indices.getD (k * a.shape.length + d) 0

/-- Well-formed N-D COO: rank at least one, `nnz * ndim` flat indices, all in bounds. -/
structure CooNd.WF (a : CooNd V) : Prop where
  rank : a.shape ≠ []
  length : a.indices.length = a.data.length * a.shape.length
  bounds : ∀ k, k < a.data.length → ∀ d, (h : d < a.shape.length) →
    0 ≤ a.coord k d ∧ a.coord k d < a.shape[d]

/-- The `k`-th coordinate of an N-D COO array. -/
def CooNd.coords (a : CooNd V) (k : Nat) : List Int :=
  (List.range a.shape.length).map (a.coord k)

/-- The stored `(coordinate, value)` pairs of an N-D COO array in storage order. -/
def CooNd.entries (a : CooNd V) : List (List Int × V) :=
  ((List.range a.data.length).map a.coords).zip a.data

/-- Element `x` of an N-D COO array: the sum of everything stored at coordinate `x`. -/
def CooNd.val [Add V] [Zero V] (a : CooNd V) (x : List Int) : V :=
  ((a.entries.filter fun e => e.1 == x).map Prod.snd).sum

/-- No coordinate is stored twice. -/
def Coo.NoDup (a : Coo V) : Prop := (a.triples.map Prod.fst).Nodup
/-- No coordinate is stored twice. -/
def CooNd.NoDup (a : CooNd V) : Prop := (a.entries.map Prod.fst).Nodup

end Lacuna
