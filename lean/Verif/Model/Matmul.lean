import Verif.Model.Spmm
/-
Batched matrix product: `matmul` for a two-dimensional sparse `x` and a dense `y` with at least
three axes (python/lacuna/array_api/linalg/__init__.py 17–52, the branch 27–40).

A dense array is the row-major list of its elements, so `reshape` (33, 35, 37, 39) changes
nothing; `np.transpose(…, (1, 0, 2))` followed by `reshape`/`ascontiguousarray` is `swap01`.
`x @ y2` goes through `CSR.__matmul__` (csr.py 215–254), `CSC.__matmul__`, `COO.__matmul__`
(coo.py 97–121) to the kernels of Model/Spmm: `prod b k y` says that `y` is a possible result
for the dense matrix `b` with `k` columns.
-/
namespace Lacuna
universe u
variable {V : Type u}

/-- The row-major list of the transposition of the first two axes of a `(d0, d1, d2)` array. -/
def swap01 [Zero V] (d0 d1 d2 : Nat) (l : List V) : List V :=
  (List.range (d1 * d0 * d2)).map fun p => l.getD (((p / d2) % d0 * d1 + (p / d2) / d0) * d2 + p % d2) 0

/-- `matmul(x, y)` for `x` of shape `(rows, cols)` and `y` of shape `batch ++ [k, n]`, `batch`
not empty: all possible results.  No result for a wrong inner dimension (`ValueError`, 27–28). -/
def MatmulRun [Zero V] (prod : List V → Nat → List V → Prop) (rows cols : Nat) (batch : List Nat) (k n : Nat)
    (y out : List V) : Prop :=
  k = cols ∧ ∃ out2, prod (swap01 batch.prod cols n y) (batch.prod * n) out2 ∧
    out = swap01 rows batch.prod n out2

end Lacuna
