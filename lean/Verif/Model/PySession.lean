import Verif.Model.PyRead
import Verif.Model.PyScan
/-
Sessions: Python code that keeps its objects in variables and writes to the NumPy arrays of objects
after their construction.

The constructors keep the arrays they are given whenever those have the right element type:
`np.asarray(x, dtype=np.int64)` and `np.asarray(x, dtype=np.float64)` do not copy then (csr.py 67–69, csc.py
64–66, coo.py 64–66, coond.py 100–101).  So two objects may share an array, and the caller may still write to
it.  The native copy of `CSR`, `CSC` and `COO` is made once, in the constructor (csr.py 75–83, csc.py 67–75,
coo.py 67–75; `to_vec` in types/csr.rs 28–36, csc.rs, coo.rs).  Methods use the native copy or the arrays, as
modelled in Model/PyClass and Model/PyProg.

Simplifications: those of Model/PyProg, PyLinProg, PyStat, PyScan and PyRead, except that arrays may be written
to; the arrays of the caller are contiguous and of the right type; attributes are not rebound (Model/PyRebind); a write is
`a[...] = l` for a list `l` of the values after the write, which covers every way of changing the elements of an
array in place; a statement that mentions an undefined name has no outcome; names are positions in the order of
definition.
-/
namespace Lacuna
variable {V : Type}

/-- An object with references to its arrays (positions in the lists of arrays of the session) and its native
copy. -/
inductive RefObj (V : Type)
  | mat (f : Fmt) (nrows ncols : Int) (indptr indices data : Nat) (handle : Option (Comp V))
  | coo (nrows ncols : Int) (row col data : Nat) (handle : Option (Coo V))
  | nd (shape : List Int) (indices data : Nat)

/-- The state of a session: all arrays of integers, all arrays of floats, all objects. -/
structure Sess (V : Type) where
  ints : List (List Int)
  floats : List (List V)
  objs : List (RefObj V)

/-- Before the first statement. -/
def Sess.start : Sess V := ⟨[], [], []⟩
/-- The elements of an array. -/
def Sess.int (s : Sess V) (a : Nat) : List Int := s.ints.getD a []
def Sess.float (s : Sess V) (a : Nat) : List V := s.floats.getD a []

/-- The attributes of an object, at this moment. -/
def RefObj.get (s : Sess V) : RefObj V → PyObj V
  | .mat f r c p i d h => .mat f ⟨r, c, s.int p, s.int i, s.float d, h⟩
  | .coo r c i j d h => .coo ⟨r, c, s.int i, s.int j, s.float d, h⟩
  | .nd sh i d => .nd ⟨sh, s.int i, s.float d⟩

/-- One more object. -/
def Sess.push (s : Sess V) (o : RefObj V) : Sess V := { s with objs := s.objs ++ [o] }

/-- The object a native function returned: its arrays are new (`from_vec`, e.g. elementwise.rs 61–67,
types/csr.rs 107–113). -/
def Sess.alloc (s : Sess V) : PyObj V → Sess V
  | .mat f x => ⟨s.ints ++ [x.indptr, x.indices], s.floats ++ [x.data],
      s.objs ++ [.mat f x.nrows x.ncols s.ints.length (s.ints.length + 1) s.floats.length x.handle]⟩
  | .coo x => ⟨s.ints ++ [x.row, x.col], s.floats ++ [x.data],
      s.objs ++ [.coo x.nrows x.ncols s.ints.length (s.ints.length + 1) s.floats.length x.handle]⟩
  | .nd x => ⟨s.ints ++ [x.indices], s.floats ++ [x.data], s.objs ++ [.nd x.shape s.ints.length s.floats.length]⟩

/-! ### Statements -/

/-- The functions and methods of Model/PyProg with one sparse operand. -/
inductive Fn (V : Type)
  | un (op : UnOp)
  | scalar (op : BinOp) (alpha : V)
  | left (op : BinOp) (alpha : V)
  | T
  | prune (eps : V)
  | elimZeros
  | ndop (op : NdOp) (arg : List Int)
  | mode (f : Fmt) (axis : Int)

/-- Statements. -/
inductive Stmt (V : Type)
  /-- `np.array(l, dtype=np.int64)` -/
  | ints (l : List Int)
  /-- `np.array(l, dtype=np.float64)` -/
  | floats (l : List V)
  /-- `CSR(p, i, d, (nrows, ncols))`, `CSC(…)` -/
  | mat (f : Fmt) (nrows ncols : Int) (indptr indices data : Nat)
  /-- `COO(i, j, d, (nrows, ncols))` -/
  | coo (nrows ncols : Int) (row col data : Nat)
  /-- `COOND(shape, i, d)` -/
  | nd (shape : List Int) (indices data : Nat)
  /-- a call with one sparse operand -/
  | call (fn : Fn V) (x : Nat)
  /-- a call with two sparse operands -/
  | bin (op : BinOp) (x y : Nat)
  /-- `a[...] = l` -/
  | setInts (a : Nat) (l : List Int)
  | setFloats (a : Nat) (l : List V)

section
variable [Zero V] [One V] [Add V] [Sub V] [Mul V] [Div V] [Neg V] [BEq V] [NatCast V] [HasFinite V]
  [HasFloor V] [HasPowf V] [HasAbs V] [HasLt V] [HasNan V]

/-- Calling a function or method of one operand. -/
def Fn.Call (env : PyEnv V) (x : PyObj V) (fn : Fn V) (out : PyRes (PyObj V)) : Prop :=
  match fn with
  | .un op => UnMethod op x out
  | .scalar op alpha => ScalarMethod op x alpha out
  | .left op alpha => ScalarLeft op alpha x out
  | .T => TMethod env x out
  | .prune eps => PruneMethod env eps x out
  | .elimZeros => PruneMethod env 0 x out
  | .ndop op arg => NdMethod env op arg x out
  | .mode f axis => ModeUnfold env f axis x out

/-- The outcomes of a statement.  One that raises changes nothing. -/
def Sess.Step (env : PyEnv V) (s : Sess V) (st : Stmt V) (out : PyRes (Sess V)) : Prop :=
  match st with
  | .ints l => out = .ret { s with ints := s.ints ++ [l] }
  | .floats l => out = .ret { s with floats := s.floats ++ [l] }
  | .mat f r c p i d => ∃ P I D, s.ints[p]? = some P ∧ s.ints[i]? = some I ∧ s.floats[d]? = some D ∧
      out = (PyRes.ofExcept (PyMat.new f r c P I D true)).bind fun x => .ret (s.push (.mat f r c p i d x.handle))
  | .coo r c i j d => ∃ I J D, s.ints[i]? = some I ∧ s.ints[j]? = some J ∧ s.floats[d]? = some D ∧
      out = .ret (s.push (.coo r c i j d (PyCoo.new r c I J D true).handle))
  | .nd sh i d => ∃ I D, s.ints[i]? = some I ∧ s.floats[d]? = some D ∧
      out = (PyRes.ofExcept (PyNd.new sh I D)).bind fun _ => .ret (s.push (.nd sh i d))
  | .call fn x => ∃ o, s.objs[x]? = some o ∧ ∃ r, fn.Call env (o.get s) r ∧ out = r.bind fun y => .ret (s.alloc y)
  | .bin op x y => ∃ o o', s.objs[x]? = some o ∧ s.objs[y]? = some o' ∧
      ∃ r, BinObj env op (o.get s) (o'.get s) r ∧ out = r.bind fun y => .ret (s.alloc y)
  | .setInts a l => ∃ old, s.ints[a]? = some old ∧
      out = if l.length = old.length then .ret { s with ints := s.ints.set a l } else .raises .valueError
  | .setFloats a l => ∃ old, s.floats[a]? = some old ∧
      out = if l.length = old.length then .ret { s with floats := s.floats.set a l } else .raises .valueError

/-- The states that a session reaches with statements that are `ok` when they are executed; after an
exception it continues in the same state.  Every statement meets an environment of its own among `envs`: between
two statements `set_num_threads` (_runtime.py 8–12) may change the number of threads, and the order in which a hash
map is iterated over is drawn anew for each (multiply.rs 212, 226). -/
inductive Sess.Reach (envs : PyEnv V → Prop) (ok : Sess V → Stmt V → Prop) : Sess V → Prop
  | start : Reach envs ok Sess.start
  | step {env : PyEnv V} {s s' : Sess V} {st : Stmt V} : Reach envs ok s → envs env → ok s st → s.Step env st (.ret s') →
      Reach envs ok s'

/-! ### Questions -/

/-- Functions and methods whose result is not a sparse object of the session. -/
inductive Query (V : Type)
  | toarray
  | nnz
  | getItem (key : Key)
  | reduce (op : RedOp V) (axis : AxisArg) (keepdims : Bool)
  | logic (op : LogicOp) (axis : AxisArg) (keepdims : Bool)
  | scan (op : ScanOp) (axis : AxisArg)
  | diff (n axis : Int)
  | count (axis : AxisArg) (keepdims : Bool)
  | linalg (fn : LinFn) (y : DenseNd V)

/-- What they return. -/
inductive Answer (V : Type)
  | array (a : DenseNd V)
  | nat (n : Nat)
  | read (r : ReadRes V)
  | red (r : RedOut V V)
  | bools (a : NdArr Bool)
  | nums (a : NdArr V)
  | ints (a : NdArr Int)
  | obj (x : PyObj V)
  | lin (r : LinRes V)

variable [HasFma V] [HasMinMax V] [HasSqrt V]

/-- Asking an object. -/
def Query.Ask (env : PyEnv V) (search : List Int → Int → Nat) (x : PyObj V) (q : Query V) (out : PyRes (Answer V)) : Prop :=
  match q with
  | .toarray => out = (PyRes.ofExcept x.toarray).bind fun a => .ret (.array a)
  | .nnz => out = .ret (.nat x.nnz)
  | .getItem key => out = (PyRes.ofExcept (x.getItem search key)).bind fun r => .ret (.read r)
  | .reduce op axis kd => ∃ o, RedMethod env op axis kd x o ∧ out = o.bind fun r => .ret (.red r)
  | .logic op axis kd => ∃ o, LogicMethod env op axis kd x o ∧ out = o.bind fun r => .ret (.bools r)
  | .scan op axis => ∃ o, ScanMethod env op axis x o ∧ out = o.bind fun r => .ret (.nums r)
  | .diff n axis => ∃ o, DiffMethod env n axis x o ∧ out = o.bind fun r => .ret (.obj r)
  | .count axis kd => ∃ o, CountMethod axis kd x o ∧ out = o.bind fun r => .ret (.ints r)
  | .linalg fn y => ∃ o, LinSparseDense env fn x y o ∧ out = o.bind fun r => .ret (.lin r)

end
end Lacuna
