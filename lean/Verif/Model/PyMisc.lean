import Verif.Model.PyProg
/-
Small parts of the public interface: names of data types and their promotion
(crates/lacuna-py/src/array_api/dtypes.rs), devices (array_api/devices.rs), `astype`
(python/lacuna/array_api/dtypes/__init__.py 6–12, python/lacuna/sparse/csr.py 738–776) and the number of
threads (python/lacuna/_runtime.py).

Simplifications: Rayon is not part of the repository; what is modelled is what it documents: the global
pool is created by the first parallel call, from the environment variable `RAYON_NUM_THREADS` if that
is a positive number and from the number of available cores otherwise, and keeps its size.
-/
namespace Lacuna

/-! ### dtypes.rs -/

/-- dtypes.rs 12–14. -/
def defaultFloatDtype : String := "float64"
/-- dtypes.rs 20–22. -/
def defaultIntDtype : String := "int64"
/-- dtypes.rs 26–28. -/
def isFloatDtype (d : String) : Bool := d == "float32" || d == "float64"
/-- dtypes.rs 32–34. -/
def isIntDtype (d : String) : Bool := d == "int32" || d == "int64" || d == "uint32" || d == "uint64"

/-- dtypes.rs 38–46. -/
def dtypeSize (d : String) : Except PyErr Nat :=
  if d == "float32" || d == "int32" || d == "uint32" then .ok 4
  else if d == "float64" || d == "int64" || d == "uint64" then .ok 8
  else .error .valueError

/-- dtypes.rs 93–101. -/
def canonicalDtype (d : String) : Option String :=
  if d == "float64" then some "float64"
  else if d == "float32" then some "float32"
  else if d == "int64" then some "int64"
  else if d == "int32" then some "int32"
  else none

/-- dtypes.rs 52–91. -/
def promoteDtypes (d1 d2 : String) : Except PyErr String :=
  match canonicalDtype d1 with
  | none => .error .typeError
  | some a => match canonicalDtype d2 with
    | none => .error .typeError
    | some b =>
      if a == b then .ok a
      else if a == "float64" || b == "float64" || (a == "float32" && b == "int64") || (a == "int64" && b == "float32") then
        .ok "float64"
      else if (a == "float32" && b == "int32") || (a == "int32" && b == "float32") then .ok "float32"
      else if (a == "int64" && b == "int32") || (a == "int32" && b == "int64") then .ok "int64"
      else .error .typeError

/-! ### devices.rs -/

/-- devices.rs 12–14. -/
def defaultDevice : String := "cpu"
/-- devices.rs 24–27. -/
def isValidDevice (d : String) : Bool := d == "cpu"
/-- devices.rs 34–37. -/
def listDevices : List String := ["cpu"]

/-- devices.rs 47–63: the fields `name` and `type` (the others are `None`). -/
def deviceInfo (d : String) : Except PyErr (String × String) :=
  if !isValidDevice d then .error .valueError else .ok (d, "cpu")

/-- The test in `zeros` and `eye` (creation/__init__.py 38–39, 122–123). -/
def checkDevice (d : Option String) : Except PyErr Unit :=
  match d with
  | none => .ok ()
  | some d => if d != "cpu" then .error .valueError else .ok ()

/-! ### astype -/

/-- What `np.dtype(…)` makes of an argument: nothing (`TypeError`), `float64`, or another type. -/
inductive DtypeArg
  | invalid | float64 | another
deriving DecidableEq, Repr

variable {V : Type}

/-- `CSR.astype` (csr.py 738–776); the data are `float64` already. -/
def csrAstype (x : PyMat V) (d : DtypeArg) : PyRes (PyObj V) :=
  match d with
  | .invalid => .raises .typeError
  | .float64 =>
    (PyRes.ofExcept (PyMat.new .csr x.nrows x.ncols x.indptr x.indices x.data false)).bind fun y => .ret (.mat .csr y)
  | .another => .raises .notImplemented

/-- `array_api.astype` on a sparse object (dtypes/__init__.py 6–11). -/
def nsAstype (x : PyObj V) (d : DtypeArg) : PyRes (PyObj V) :=
  match x with
  | .mat .csr x => csrAstype x d
  | _ => .raises .notImplemented

/-! ### threads -/

/-- The environment variable `RAYON_NUM_THREADS`. -/
inductive EnvVar
  | unset
  /-- an empty string -/
  | empty
  /-- the decimal digits of a number -/
  | num (k : Int)
  /-- any other string -/
  | junk
deriving DecidableEq, Repr

/-- `_current_threads` (_runtime.py 4–5), the environment, and the size of Rayon's pool once there is one. -/
structure Threads where
  current : Nat
  env : EnvVar
  pool : Option Nat
deriving DecidableEq, Repr

/-- After importing the package (_runtime.py 4–5; `cores` is `multiprocessing.cpu_count()`). -/
def Threads.init (cores : Nat) (env : EnvVar) : Threads := ⟨max 1 cores, env, none⟩

/-- `set_num_threads(n)` (_runtime.py 8–12): `int(n)` cuts off the fraction. -/
def Threads.set (n : Rat) (s : Threads) : Threads :=
  if n ≠ 0 ∧ 0 < n then { s with current := n.floor.toNat, env := .num n.floor } else s

/-- `get_num_threads()` (_runtime.py 15–23). -/
def Threads.get (s : Threads) : Nat :=
  match s.env with
  | .num k => (max 1 k).toNat
  | _ => s.current

/-- A parallel kernel runs: the pool is created if there is none (`avail`: the available cores). -/
def Threads.run (avail : Nat) (s : Threads) : Threads :=
  match s.pool with
  | some _ => s
  | none => { s with pool := some (match s.env with | .num k => if 0 < k then k.toNat else avail | _ => avail) }

/-- What can happen. -/
inductive ThreadStep
  | set (n : Rat)
  | run
  /-- the program changes the environment variable -/
  | environ (e : EnvVar)

def ThreadStep.apply (avail : Nat) (s : Threads) : ThreadStep → Threads
  | .set n => s.set n
  | .run => s.run avail
  | .environ e => { s with env := e }

/-- A sequence of steps. -/
def Threads.steps (avail : Nat) (s : Threads) (ps : List ThreadStep) : Threads := ps.foldl (ThreadStep.apply avail) s

end Lacuna
