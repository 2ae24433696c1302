import Verif.Model.Core
/-
Creation routines: crates/lacuna-py/src/array_api/creation.rs, the class methods of
python/lacuna/sparse/csr.py (101–205) and python/lacuna/array_api/creation/__init__.py (8–129).

The Rust functions return the three arrays; the Python class methods attach the shape.  Both
are modelled together.  `none` is a panic (`expect`).
-/
namespace Lacuna
universe u
variable {V : Type u}

/-- `i64::try_from(i).expect("matrix dimension exceeds i64")`. -/
def dimToI64? (i : Nat) : Option Int := if (i : Int) ≤ i64Max then some (i : Int) else none

/-- `zeros_csr` (creation.rs 18–36) with `CSR.zeros` (csr.py 101–134). -/
def zerosCsr (nrows ncols : Nat) : Csr V := ⟨nrows, ncols, List.replicate (nrows + 1) 0, [], []⟩
/-- `zeros_csc` (creation.rs 39–57). -/
def zerosCsc (nrows ncols : Nat) : Csc V := ⟨nrows, ncols, List.replicate (ncols + 1) 0, [], []⟩
/-- `zeros_coo` (creation.rs 60–78). -/
def zerosCoo (nrows ncols : Nat) : Coo V := ⟨nrows, ncols, [], [], []⟩

/-- `diag_csr` (creation.rs 118–140) with `CSR.diag` (csr.py 170–205). -/
def diagCsr (diag : List V) : Option (Csr V) :=
  ((List.range (diag.length + 1)).mapM dimToI64?).bind fun indptr =>
  ((List.range diag.length).mapM dimToI64?).map fun indices => ⟨diag.length, diag.length, indptr, indices, diag⟩

/-- `eye_csr` (creation.rs 87–109) with `CSR.eye` (csr.py 136–168). -/
def eyeCsr [One V] (n : Nat) : Option (Csr V) :=
  ((List.range (n + 1)).mapM dimToI64?).bind fun indptr =>
  ((List.range n).mapM dimToI64?).map fun indices => ⟨n, n, indptr, indices, List.replicate n 1⟩

/-- Outcome of a Python call. -/
inductive PyErr
  | notImplemented | valueError | indexError | runtimeError | overflowError | zeroDivision | attributeError | typeError | panic
deriving DecidableEq, Repr

/-- `array_api.eye` (creation/__init__.py 84–129): rectangular and off-diagonal requests are
rejected; a negative size cannot be converted to `usize`. -/
def pyEye [One V] (nRows : Int) (nCols : Option Int) (k : Int) : Except PyErr (Csr V) :=
  if nCols.any (· != nRows) then .error .notImplemented
  else if k != 0 then .error .notImplemented
  else if nRows < 0 then .error .overflowError
  else match eyeCsr nRows.toNat with
    | some m => .ok m
    | none => .error .panic

end Lacuna
