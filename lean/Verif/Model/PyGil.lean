import Verif.Model.PySession
/-
Several Python threads.  The bindings release the GIL while a kernel runs (`py.detach`, e.g. types/csr.rs 50, 73, 106,
189; array_api/elementwise.rs, utility.rs, manipulation.rs), so other threads go on with their statements meanwhile.

The arrays of the sparse operands are copied before (`to_vec`), or the native object is used, which nothing
changes after its construction (types/csr.rs, csc.rs, coo.rs have no `&mut self`).  `x @ y` copies the dense operand
as well (types/csr.rs 49, 72, csc.rs 49, 72, coo.rs 52, 75).  The bindings behind `tensordot` and `vecdot` do not: they pass
the slice of the NumPy array to the kernel (array_api/linalg.rs 76–78, 116–118, 156–158, 188–192, 221–222, 246–247,
271–272, 301–302).

Simplifications: those of Model/PySession.  A statement of a session other than a call runs with the GIL held; NumPy
itself may release it while it copies large arrays, which is not modelled.  The dense operand is contiguous, so
that `y.reshape(-1)` (linalg/__init__.py 91, 102, 108, 131) is a view.  Which thread does what is left open: any action may
follow any other, which allows more than any number of threads that each run one statement after the other.
-/
namespace Lacuna
variable {V : Type}

/-- A call whose kernel is running, with the operands as the binding got them. -/
inductive Job (V : Type)
  | call (fn : Fn V) (x : PyObj V)
  | bin (op : BinOp) (x y : PyObj V)
  /-- `fn(x, a)` for a view `a` of shape `shape` on the array of floats number `b`; `y` are the contents of that array
  when the binding was called -/
  | lin (fn : LinFn) (x : PyObj V) (shape : List Nat) (b : Nat) (y : List V)

/-- Does the kernel read the NumPy array of the dense operand?  `tensordot` of a matrix and a vector, and `vecdot`
along the columns, are `x @ y` (linalg/__init__.py 77–80, 157–160). -/
def LinFn.borrows (fn : LinFn) (x : PyObj V) (shape : List Nat) : Bool :=
  match fn, x with
  | .matmul, _ => false
  | .tensordot _, .nd _ => true
  | .tensordot _, _ => shape.length ≠ 1
  | .vecdot _, .nd _ => true
  | .vecdot axis, _ => axis = some 0

/-- The NumPy array that the kernel of a call reads. -/
def Job.borrowed : Job V → Option Nat
  | .lin fn x shape b _ => if fn.borrows x shape then some b else none
  | _ => none

/-- The arrays and objects of all threads, and the calls that are running. -/
structure PyThreads (V : Type) where
  sess : Sess V
  jobs : List (Job V)

/-- Before the first statement. -/
def PyThreads.start : PyThreads V := ⟨.start, []⟩

/-- What a thread can do next. -/
inductive Act (V : Type)
  /-- create or write to an array, construct an object -/
  | stmt (st : Stmt V)
  /-- enter the binding of a call with one or two sparse operands -/
  | call (fn : Fn V) (x : Nat)
  | bin (op : BinOp) (x y : Nat)
  /-- enter the binding of `matmul`, `tensordot` or `vecdot` with a dense operand -/
  | lin (fn : LinFn) (x : Nat) (shape : List Nat) (b : Nat)
  /-- leave the binding of a running call -/
  | finish (k : Nat)

/-- Statements that are not calls. -/
def Stmt.plain : Stmt V → Bool
  | .call _ _ => false
  | .bin _ _ _ => false
  | _ => true

/-- The result of a call becomes an object or an array of the session. -/
def Sess.give (s : Sess V) : LinRes V → Sess V
  | .sparse x => s.alloc x
  | .dense d => { s with floats := s.floats ++ [d.data] }

section
variable [Zero V] [One V] [Add V] [Sub V] [Mul V] [Div V] [Neg V] [BEq V] [NatCast V] [HasFinite V]
  [HasFloor V] [HasPowf V] [HasAbs V] [HasLt V] [HasNan V] [HasFma V]

/-- The outcomes of a call. -/
def Job.Run (env : PyEnv V) (j : Job V) (r : PyRes (LinRes V)) : Prop :=
  match j with
  | .call fn x => ∃ o, fn.Call env x o ∧ r = o.bind fun y => .ret (.sparse y)
  | .bin op x y => ∃ o, BinObj env op x y o ∧ r = o.bind fun y => .ret (.sparse y)
  | .lin fn x shape _ y => LinSparseDense env fn x ⟨shape, y⟩ r

/-- Does a statement write to an array that a running kernel reads?  In Rust a store to memory behind a live shared
slice is undefined behaviour.  Calls of these functions that raise do so before the kernel (linalg/__init__.py 63–83, 112–125,
142–192, and the checks of the bindings). -/
def PyThreads.Races (env : PyEnv V) (m : PyThreads V) (st : Stmt V) : Prop :=
  ∃ a l, st = .setFloats a l ∧ ∃ j ∈ m.jobs, j.borrowed = some a ∧ ∀ x, ¬ j.Run env (.raises x)

/-- The outcomes of an action.  An exception in a call ends the call. -/
def PyThreads.Step (env : PyEnv V) (m : PyThreads V) (a : Act V) (out : PyRes (PyThreads V)) : Prop :=
  match a with
  | .stmt st => st.plain = true ∧ ∃ o, m.sess.Step env st o ∧
      ((¬ m.Races env st ∧ out = o.bind fun s => .ret { m with sess := s }) ∨
       (m.Races env st ∧ out = o.bind fun _ => .ub))
  | .call fn x => ∃ o, m.sess.objs[x]? = some o ∧ out = .ret { m with jobs := m.jobs ++ [.call fn (o.get m.sess)] }
  | .bin op x y => ∃ o o', m.sess.objs[x]? = some o ∧ m.sess.objs[y]? = some o' ∧
      out = .ret { m with jobs := m.jobs ++ [.bin op (o.get m.sess) (o'.get m.sess)] }
  | .lin fn x shape b => ∃ o l, m.sess.objs[x]? = some o ∧ m.sess.floats[b]? = some l ∧
      out = .ret { m with jobs := m.jobs ++ [.lin fn (o.get m.sess) shape b l] }
  | .finish k => ∃ j, m.jobs[k]? = some j ∧ ∃ r, j.Run env r ∧
      out = (match r with
        | .ret y => .ret ⟨m.sess.give y, m.jobs.eraseIdx k⟩
        | .raises _ => .ret ⟨m.sess, m.jobs.eraseIdx k⟩
        | .ub => .ub
        | .hang => .hang)

/-- The states that the threads reach with actions that are `ok` when they are executed, each in an environment of its
own. -/
inductive PyThreads.Reach (envs : PyEnv V → Prop) (ok : PyThreads V → Act V → Prop) : PyThreads V → Prop
  | start : Reach envs ok PyThreads.start
  | step {env : PyEnv V} {m m' : PyThreads V} {a : Act V} : Reach envs ok m → envs env → ok m a → m.Step env a (.ret m') →
      Reach envs ok m'

end
end Lacuna
