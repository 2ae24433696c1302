import Verif.Model.Create
/-
The namespace `lacuna.array_api` (python/lacuna/array_api): which function runs a sparse
implementation, which one refuses, and what reaches NumPy.

* functions without a sparse implementation forward all their parameters to
  `getattr(_namespace, name)` (creation, dtypes, elementwise, indexing, manipulation, searching, sets and
  sorting packages); `_namespace.__getattr__` (_namespace.py 63–87) wraps NumPy's function of that name
  in a guard;
* the others go through chains of `isinstance` tests in `_dispatch` and `linalg`.

Simplifications: what an implementation does once it is chosen is modelled elsewhere
(Model/PyProg, PyReduce, PyScan, PyStat, PyLinalg, PyRead); arguments are sparse objects, numbers,
lists and other objects; Python's own errors for a wrong number of arguments are left out.
-/
namespace Lacuna

/-- The sparse classes (all derive from `SparseArray`, base.py 8–70). -/
inductive SpCls
  | csr | csc | coo | coond
deriving DecidableEq, Repr

/-- Arguments. -/
inductive Arg
  | sparse (c : SpCls)
  /-- a Python `int` or `float` -/
  | number (k : Nat)
  /-- a list or tuple -/
  | list (xs : List Arg)
  /-- anything else: a NumPy array, a string, … -/
  | other (k : Nat)

/-- `isinstance(x, (SparseArray, SparseMatrix))` and the `_is_sparse` helpers of the dispatch modules
(_namespace.py 70–71; elementwise.py 7–8; linalg/__init__.py 13–14; manipulation.py 5–6). -/
def Arg.isSparse : Arg → Bool
  | .sparse _ => true
  | _ => false

/-- What `getattr(numpy, name)` finds. -/
inductive NpAttr
  | missing | function | constant
deriving DecidableEq, Repr

/-- What a call comes to. -/
inductive Called
  | raises (e : PyErr)
  /-- NumPy's function of that name is called with these arguments -/
  | numpy (name : String) (args : List Arg) (kwargs : List (String × Arg))
  /-- a sparse implementation runs -/
  | sparse

/-- `getattr(_namespace, name)(*args, **kwargs)` (_namespace.py 63–87): the attribute is looked up first;
a call of a constant is a `TypeError`. -/
def guardedCall (np : String → NpAttr) (name : String) (args : List Arg) (kwargs : List (String × Arg)) : Called :=
  match np name with
  | .missing => .raises .attributeError
  | .constant => .raises .typeError
  | .function =>
    if args.any Arg.isSparse || kwargs.any (fun v => v.2.isSparse) then .raises .notImplemented
    else .numpy name args kwargs

/-- A function that only forwards: its name, its parameters, whether it takes `*arrays`, and the
parameters it forwards by position and by keyword. -/
structure Stub where
  name : String
  params : List String
  star : Bool
  pos : List String
  kw : List (String × String)
deriving DecidableEq, Repr

/-- Calling it with the given values of the parameters. -/
def Stub.call (np : String → NpAttr) (s : Stub) (val : String → Arg) (arrays : List Arg) : Called :=
  guardedCall np s.name (s.pos.map val ++ if s.star then arrays else []) (s.kw.map fun k => (k.1, val k.2))

/-- creation/__init__.py 4–5, 44–45, 48–49, 52–53, 56–57, 60–61, 64–65, 68–69, 72–73, 76–77, 80–81, 132–133, 136–137, 140–141. -/
def stubsCreation : List Stub := [
  ⟨"asarray", ["obj", "dtype", "device", "copy"], false, ["obj"], [("dtype", "dtype"), ("device", "device"), ("copy", "copy")]⟩,
  ⟨"ones", ["shape", "dtype", "device"], false, ["shape"], [("dtype", "dtype"), ("device", "device")]⟩,
  ⟨"full", ["shape", "fill_value", "dtype", "device"], false, ["shape", "fill_value"], [("dtype", "dtype"), ("device", "device")]⟩,
  ⟨"empty", ["shape", "dtype", "device"], false, ["shape"], [("dtype", "dtype"), ("device", "device")]⟩,
  ⟨"zeros_like", ["x", "dtype", "device"], false, ["x"], [("dtype", "dtype"), ("device", "device")]⟩,
  ⟨"ones_like", ["x", "dtype", "device"], false, ["x"], [("dtype", "dtype"), ("device", "device")]⟩,
  ⟨"full_like", ["x", "fill_value", "dtype", "device"], false, ["x", "fill_value"], [("dtype", "dtype"), ("device", "device")]⟩,
  ⟨"empty_like", ["x", "dtype", "device"], false, ["x"], [("dtype", "dtype"), ("device", "device")]⟩,
  ⟨"arange", ["start", "stop", "step", "dtype", "device"], false, ["start", "stop", "step"], [("dtype", "dtype"), ("device", "device")]⟩,
  ⟨"linspace", ["start", "stop", "num", "dtype", "device"], false, ["start", "stop", "num"], [("dtype", "dtype"), ("device", "device")]⟩,
  ⟨"meshgrid", ["indexing"], true, [], [("indexing", "indexing")]⟩,
  ⟨"tril", ["x", "k"], false, ["x", "k"], []⟩,
  ⟨"triu", ["x", "k"], false, ["x", "k"], []⟩,
  ⟨"from_dlpack", ["dlpack_obj"], false, ["dlpack_obj"], []⟩]

/-- dtypes/__init__.py 15–16, 19–20, 23–24, 27–28, 31–32. -/
def stubsDtypes : List Stub := [
  ⟨"can_cast", ["from_dtype", "to_dtype"], false, ["from_dtype", "to_dtype"], []⟩,
  ⟨"isdtype", ["dtype", "kind"], false, ["dtype", "kind"], []⟩,
  ⟨"result_type", [], true, [], []⟩,
  ⟨"finfo", ["dtype"], false, ["dtype"], []⟩,
  ⟨"iinfo", ["dtype"], false, ["dtype"], []⟩]

/-- elementwise/arithmetic.py 33–34, 37–38. -/
def stubsArithmetic : List Stub := [
  ⟨"maximum", ["x", "y"], false, ["x", "y"], []⟩,
  ⟨"minimum", ["x", "y"], false, ["x", "y"], []⟩]

/-- elementwise/complex.py 4–5, 8–9, 12–13. -/
def stubsComplex : List Stub := [
  ⟨"real", ["x"], false, ["x"], []⟩,
  ⟨"imag", ["x"], false, ["x"], []⟩,
  ⟨"conj", ["x"], false, ["x"], []⟩]

/-- elementwise/exp_log.py 4–5, 8–9, 12–13, 16–17, 20–21, 24–25, 28–29. -/
def stubsExpLog : List Stub := [
  ⟨"exp", ["x"], false, ["x"], []⟩,
  ⟨"expm1", ["x"], false, ["x"], []⟩,
  ⟨"log", ["x"], false, ["x"], []⟩,
  ⟨"log1p", ["x"], false, ["x"], []⟩,
  ⟨"log2", ["x"], false, ["x"], []⟩,
  ⟨"log10", ["x"], false, ["x"], []⟩,
  ⟨"logaddexp", ["x", "y"], false, ["x", "y"], []⟩]

/-- elementwise/logical_bitwise.py 4–5, 8–9, 12–13, 16–17, 20–21, 24–25, 28–29, 32–33, 36–37, 40–41. -/
def stubsLogicalBitwise : List Stub := [
  ⟨"logical_and", ["x", "y"], false, ["x", "y"], []⟩,
  ⟨"logical_or", ["x", "y"], false, ["x", "y"], []⟩,
  ⟨"logical_not", ["x"], false, ["x"], []⟩,
  ⟨"logical_xor", ["x", "y"], false, ["x", "y"], []⟩,
  ⟨"bitwise_and", ["x", "y"], false, ["x", "y"], []⟩,
  ⟨"bitwise_or", ["x", "y"], false, ["x", "y"], []⟩,
  ⟨"bitwise_xor", ["x", "y"], false, ["x", "y"], []⟩,
  ⟨"bitwise_invert", ["x"], false, ["x"], []⟩,
  ⟨"bitwise_left_shift", ["x", "y"], false, ["x", "y"], []⟩,
  ⟨"bitwise_right_shift", ["x", "y"], false, ["x", "y"], []⟩]

/-- elementwise/math_basic.py 13–14, 21–22, 25–26, 29–30, 33–34, 37–38, 41–42, 45–46. -/
def stubsMathBasic : List Stub := [
  ⟨"positive", ["x"], false, ["x"], []⟩,
  ⟨"signbit", ["x"], false, ["x"], []⟩,
  ⟨"sqrt", ["x"], false, ["x"], []⟩,
  ⟨"square", ["x"], false, ["x"], []⟩,
  ⟨"floor", ["x"], false, ["x"], []⟩,
  ⟨"ceil", ["x"], false, ["x"], []⟩,
  ⟨"trunc", ["x"], false, ["x"], []⟩,
  ⟨"round", ["x"], false, ["x"], []⟩]

/-- elementwise/nan_inf.py 4–5, 8–9, 12–13, 16–17, 20–21. -/
def stubsNanInf : List Stub := [
  ⟨"isfinite", ["x"], false, ["x"], []⟩,
  ⟨"isinf", ["x"], false, ["x"], []⟩,
  ⟨"isnan", ["x"], false, ["x"], []⟩,
  ⟨"copysign", ["x", "y"], false, ["x", "y"], []⟩,
  ⟨"nextafter", ["x", "y"], false, ["x", "y"], []⟩]

/-- elementwise/trig_hyp.py 4–5, 8–9, 12–13, 16–17, 20–21, 24–25, 28–29, 32–33, 36–37, 40–41, 44–45, 48–49, 52–53. -/
def stubsTrigHyp : List Stub := [
  ⟨"sin", ["x"], false, ["x"], []⟩,
  ⟨"cos", ["x"], false, ["x"], []⟩,
  ⟨"tan", ["x"], false, ["x"], []⟩,
  ⟨"asin", ["x"], false, ["x"], []⟩,
  ⟨"acos", ["x"], false, ["x"], []⟩,
  ⟨"atan", ["x"], false, ["x"], []⟩,
  ⟨"atan2", ["y", "x"], false, ["y", "x"], []⟩,
  ⟨"sinh", ["x"], false, ["x"], []⟩,
  ⟨"cosh", ["x"], false, ["x"], []⟩,
  ⟨"tanh", ["x"], false, ["x"], []⟩,
  ⟨"asinh", ["x"], false, ["x"], []⟩,
  ⟨"acosh", ["x"], false, ["x"], []⟩,
  ⟨"atanh", ["x"], false, ["x"], []⟩]

/-- indexing/__init__.py 4–5, 8–9. -/
def stubsIndexing : List Stub := [
  ⟨"take", ["x", "indices", "axis"], false, ["x", "indices"], [("axis", "axis")]⟩,
  ⟨"take_along_axis", ["x", "indices", "axis"], false, ["x", "indices", "axis"], []⟩]

/-- manipulation/__init__.py 9–10, 13–14, 17–18, 25–26, 29–30, 33–34, 37–38, 41–42, 45–46, 49–50, 53–54, 57–58. -/
def stubsManipulation : List Stub := [
  ⟨"squeeze", ["x", "axis"], false, ["x"], [("axis", "axis")]⟩,
  ⟨"expand_dims", ["x", "axis"], false, ["x", "axis"], []⟩,
  ⟨"moveaxis", ["x", "source", "destination"], false, ["x", "source", "destination"], []⟩,
  ⟨"stack", ["arrays", "axis"], false, ["arrays"], [("axis", "axis")]⟩,
  ⟨"concat", ["arrays", "axis"], false, ["arrays"], [("axis", "axis")]⟩,
  ⟨"unstack", ["x", "axis"], false, ["x"], [("axis", "axis")]⟩,
  ⟨"broadcast_to", ["x", "shape"], false, ["x", "shape"], []⟩,
  ⟨"broadcast_arrays", [], true, [], []⟩,
  ⟨"flip", ["x", "axis"], false, ["x"], [("axis", "axis")]⟩,
  ⟨"roll", ["x", "shift", "axis"], false, ["x", "shift"], [("axis", "axis")]⟩,
  ⟨"repeat", ["x", "repeats", "axis"], false, ["x", "repeats"], [("axis", "axis")]⟩,
  ⟨"tile", ["x", "reps"], false, ["x", "reps"], []⟩]

/-- searching/__init__.py 5–6, 9–10, 13–14, 21–22, 25–26. -/
def stubsSearching : List Stub := [
  ⟨"argmax", ["x", "axis", "keepdims"], false, ["x"], [("axis", "axis"), ("keepdims", "keepdims")]⟩,
  ⟨"argmin", ["x", "axis", "keepdims"], false, ["x"], [("axis", "axis"), ("keepdims", "keepdims")]⟩,
  ⟨"nonzero", ["x"], false, ["x"], []⟩,
  ⟨"where", ["cond", "x", "y"], false, ["cond", "x", "y"], []⟩,
  ⟨"searchsorted", ["x", "v", "side"], false, ["x", "v"], [("side", "side")]⟩]

/-- sets/__init__.py 4–5, 8–9, 12–13, 16–17. -/
def stubsSets : List Stub := [
  ⟨"unique_values", ["x"], false, ["x"], []⟩,
  ⟨"unique_counts", ["x"], false, ["x"], []⟩,
  ⟨"unique_inverse", ["x"], false, ["x"], []⟩,
  ⟨"unique_all", ["x"], false, ["x"], []⟩]

/-- sorting/__init__.py 4–5, 8–9. -/
def stubsSorting : List Stub := [
  ⟨"sort", ["x", "axis"], false, ["x"], [("axis", "axis")]⟩,
  ⟨"argsort", ["x", "axis"], false, ["x"], [("axis", "axis")]⟩]

/-- All functions that only forward. -/
def stubs : List Stub :=
  stubsCreation ++ stubsDtypes ++ stubsArithmetic ++ stubsComplex ++ stubsExpLog ++ stubsLogicalBitwise ++ stubsMathBasic ++ stubsNanInf ++ stubsTrigHyp ++ stubsIndexing ++ stubsManipulation ++ stubsSearching ++ stubsSets ++ stubsSorting

/-! ### functions with a sparse implementation -/

/-- What a chain of `isinstance` tests leads to. -/
inductive Route
  /-- a sparse implementation -/
  | sparse
  /-- `raise NotImplementedError` -/
  | refuse
  /-- the last lines: NumPy's function with the arguments as they are -/
  | numpy
deriving DecidableEq, Repr

/-- A chain of tests on the class of one argument. -/
def classChain (tests : List (List SpCls × Route)) : Arg → Route
  | .sparse c => ((tests.find? fun t => t.1.contains c).map (·.2)).getD .numpy
  | _ => .numpy

/-- Functions of one array. -/
def dispatch1 : List (String × (Arg → Route)) := [
  -- elementwise.py 11–29
  ("abs", classChain [([.csr, .csc, .coo, .coond], .sparse)]),
  ("negative", classChain [([.csr, .csc, .coo, .coond], .sparse)]),
  ("sign", classChain [([.csr, .csc, .coo, .coond], .sparse)]),
  -- manipulation.py 9–28
  ("permute_dims", classChain [([.coond], .sparse), ([.csr, .csc, .coo, .coond], .refuse)]),
  ("reshape", classChain [([.coond], .sparse), ([.csr, .csc, .coo, .coond], .refuse)]),
  -- reductions.py 77–113, 116–152, 155–222, 225–294, 297–366, 369–420, 423–474
  ("sum", classChain [([.csr, .csc, .coo], .sparse), ([.coond], .sparse)]),
  ("mean", classChain [([.csr, .csc, .coo], .sparse), ([.coond], .sparse)]),
  ("prod", classChain [([.csr, .csc, .coo], .sparse), ([.coond], .sparse)]),
  ("var", classChain [([.csr, .csc, .coo], .sparse), ([.coond], .sparse)]),
  ("std", classChain [([.csr, .csc, .coo], .sparse), ([.coond], .sparse)]),
  ("all", classChain [([.csr, .csc, .coo], .sparse), ([.coond], .sparse)]),
  ("any", classChain [([.csr, .csc, .coo], .sparse), ([.coond], .sparse)]),
  -- reductions.py 477–512, 515–552, 555–592, 595–651, 654–710
  ("diff", classChain [([.csr, .csc, .coo], .sparse), ([.coond], .refuse)]),
  ("cumulative_sum", classChain [([.csr, .csc, .coo], .sparse), ([.coond], .refuse)]),
  ("cumulative_prod", classChain [([.csr, .csc, .coo], .sparse), ([.coond], .refuse)]),
  ("min", classChain [([.csr, .csc, .coo], .sparse), ([.coond], .refuse)]),
  ("max", classChain [([.csr, .csc, .coo], .sparse), ([.coond], .refuse)]),
  -- searching.py 11–67
  ("count_nonzero", classChain [([.csr], .sparse), ([.csc], .sparse), ([.coo], .sparse)]),
  -- linalg/__init__.py 199–203
  ("matrix_transpose", classChain [([.csr, .csc, .coo], .sparse)]),
  -- dtypes/__init__.py 6–12
  ("astype", classChain [([.csr], .sparse), ([.csr, .csc, .coo, .coond], .refuse)])]

/-- `isinstance(x, classes)`. -/
def Arg.isa (x : Arg) (cs : List SpCls) : Bool :=
  match x with
  | .sparse c => cs.contains c
  | _ => false
/-- `isinstance(x, (int, float))`. -/
def Arg.isNumber : Arg → Bool
  | .number _ => true
  | _ => false
/-- `isinstance(x, np.ndarray)`: some of the other objects. -/
def Arg.isArray (arr : Nat → Bool) : Arg → Bool
  | .other k => arr k
  | _ => false

/-- `add`, `subtract` (elementwise.py 32–43, 93–103). -/
def routeAdd (x y : Arg) : Route :=
  if x.isa [.csr] && y.isa [.csr] then .sparse
  else if x.isa [.csc] && y.isa [.csc] then .sparse
  else if x.isSparse || y.isSparse then .refuse
  else .numpy

/-- `multiply` (elementwise.py 228–251). -/
def routeMul (x y : Arg) : Route :=
  if x.isNumber && y.isa [.csr, .csc, .coo] then .sparse
  else if y.isNumber && x.isa [.csr, .csc, .coo] then .sparse
  else if x.isa [.coond] && y.isa [.coond] then .sparse
  else if x.isa [.csr] && y.isa [.csr] then .sparse
  else if x.isa [.csc] && y.isa [.csc] then .sparse
  else if x.isSparse || y.isSparse then .refuse
  else .numpy

/-- `divide` with `left = [CSR, CSC, COO]`, `floor_divide`, `remainder`, `pow` with all classes
(elementwise.py 202–225, 254–327). -/
def routeDiv (left : List SpCls) (x y : Arg) : Route :=
  if y.isNumber && x.isa left then .sparse
  else if x.isNumber && y.isSparse then .refuse
  else if x.isa [.csr] && y.isa [.csr] then .sparse
  else if x.isa [.csc] && y.isa [.csc] then .sparse
  else if x.isa [.coond] && y.isa [.coond] then .refuse
  else if x.isSparse || y.isSparse then .refuse
  else .numpy

/-- `equal`, `not_equal`, `less`, `less_equal`, `greater`, `greater_equal` (elementwise.py 45–66, 69–90,
106–199): the sparse operands are made dense. -/
def routeCmp (x y : Arg) : Route := if x.isSparse || y.isSparse then .sparse else .numpy

/-- `matmul` (linalg/__init__.py 17–52). -/
def routeMatmul (arr : Nat → Bool) (x y : Arg) : Route :=
  if x.isSparse || y.isSparse then
    if x.isSparse && y.isSparse then .refuse
    else if x.isa [.csr, .csc, .coo] && y.isArray arr then .sparse
    else if y.isa [.csr, .csc] && x.isArray arr then .refuse
    else .refuse
  else .numpy

/-- `tensordot` (linalg/__init__.py 55–141). -/
def routeTensordot (arr : Nat → Bool) (x y : Arg) : Route :=
  if x.isSparse || y.isSparse then
    if x.isSparse && y.isSparse then .refuse
    else if x.isa [.csr, .csc, .coo] && y.isArray arr then .sparse
    else if x.isa [.coond] && y.isArray arr then .sparse
    else .refuse
  else .numpy

/-- `vecdot` (linalg/__init__.py 144–196); `arr` picks the one-dimensional arrays. -/
def routeVecdot (arr : Nat → Bool) (x y : Arg) : Route :=
  if x.isSparse || y.isSparse then
    if x.isSparse && y.isSparse then .refuse
    else if !y.isArray arr then .refuse
    else if x.isa [.csr, .csc, .coo] then .sparse
    else if x.isa [.coond] then .sparse
    else .refuse
  else .numpy

/-- Functions of two arrays; `arr` tells which other objects are NumPy arrays. -/
def dispatch2 (arr : Nat → Bool) : List (String × (Arg → Arg → Route)) := [
  ("add", routeAdd), ("subtract", routeAdd), ("multiply", routeMul),
  ("divide", routeDiv [.csr, .csc, .coo]), ("floor_divide", routeDiv [.csr, .csc, .coo, .coond]),
  ("remainder", routeDiv [.csr, .csc, .coo, .coond]), ("pow", routeDiv [.csr, .csc, .coo, .coond]),
  ("equal", routeCmp), ("not_equal", routeCmp), ("less", routeCmp), ("less_equal", routeCmp),
  ("greater", routeCmp), ("greater_equal", routeCmp),
  ("matmul", routeMatmul arr), ("tensordot", routeTensordot arr), ("vecdot", routeVecdot arr)]

/-- Functions that build a `CSR` from numbers (creation/__init__.py 8–41, 84–129; Model/Create). -/
def creators : List String := ["zeros", "eye"]

/-- Constants (constants.py 1–7). -/
def nsConstants : List String := ["e", "inf", "nan", "newaxis", "pi"]

/-- The names `array_api/__init__.py` imports (3–139), in its order. -/
def publicNames : List String := [
  "e", "inf", "nan", "newaxis", "pi", "arange", "asarray", "empty", "empty_like", "eye",
  "from_dlpack", "full", "full_like", "linspace", "meshgrid", "ones", "ones_like", "tril", "triu",
  "zeros", "zeros_like", "astype", "can_cast", "finfo", "iinfo", "isdtype", "result_type", "add",
  "divide", "equal", "floor_divide", "greater", "greater_equal", "less", "less_equal", "maximum",
  "minimum", "multiply", "not_equal", "pow", "remainder", "subtract", "conj", "imag", "real",
  "exp", "expm1", "log", "log1p", "log2", "log10", "logaddexp", "bitwise_and", "bitwise_invert",
  "bitwise_left_shift", "bitwise_or", "bitwise_right_shift", "bitwise_xor", "logical_and",
  "logical_not", "logical_or", "logical_xor", "abs", "ceil", "floor", "negative", "positive",
  "round", "sign", "signbit", "sqrt", "square", "trunc", "copysign", "isfinite", "isinf", "isnan",
  "nextafter", "acos", "acosh", "asin", "asinh", "atan", "atan2", "atanh", "cos", "cosh", "sin",
  "sinh", "tan", "tanh", "take", "take_along_axis", "matmul", "matrix_transpose", "tensordot",
  "vecdot", "broadcast_arrays", "broadcast_to", "concat", "expand_dims", "flip", "moveaxis",
  "permute_dims", "repeat", "reshape", "roll", "squeeze", "stack", "tile", "unstack", "all", "any",
  "cumulative_prod", "cumulative_sum", "diff", "max", "mean", "min", "prod", "std", "sum", "var",
  "argmax", "argmin", "count_nonzero", "nonzero", "searchsorted", "where", "unique_all",
  "unique_counts", "unique_inverse", "unique_values", "argsort", "sort"]

/-- The capabilities that `__array_namespace_info__()` reports (_namespace.py 24–59). -/
def capabilities : List String :=
  ["matmul", "matrix_transpose", "tensordot", "vecdot"] ++
  ["sum", "mean", "min", "max", "count_nonzero", "prod", "cumulative_sum", "cumulative_prod", "var", "std"] ++
  ["abs", "equal", "not_equal", "less", "less_equal", "greater", "greater_equal", "add", "subtract", "multiply", "divide", "floor_divide", "remainder", "pow", "negative", "sign"] ++
  ["zeros", "eye"] ++
  ["permute_dims", "reshape"]

end Lacuna
