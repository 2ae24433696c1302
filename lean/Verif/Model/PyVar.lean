import Verif.Model.PyProg
/-
Python programs as in Model/PyProg, without the assumption that the environment stays the same: every
call meets its own.

Between two calls the number of worker threads may change (`set_num_threads`,
python/lacuna/_runtime.py 8–12), and the two hash maps of the broadcasting product are iterated over
in an order that is drawn anew for every map (`HashMap::new()`,
crates/lacuna-kernels/src/elementwise/multiply.rs 212, 226: a `RandomState` for each).
-/
namespace Lacuna
variable {V : Type}
variable [Zero V] [One V] [Add V] [Sub V] [Mul V] [Div V] [Neg V] [BEq V] [NatCast V] [HasFinite V]
  [HasFloor V] [HasPowf V] [HasAbs V] [HasLt V] [HasNan V]

/-- All outcomes of running a program (Model/PyProg, `Prog.Eval`, with the same citations) when every
call that depends on the environment meets any one of `envs`. -/
def Prog.EvalAny (envs : PyEnv V → Prop) : Prog V → PyRes (PyObj V) → Prop
  | .mat f nrows ncols indptr indices data, out =>
    out = (PyRes.ofExcept (PyMat.new f nrows ncols indptr indices data true)).bind fun x => .ret (.mat f x)
  | .coo nrows ncols row col data, out => out = .ret (.coo (PyCoo.new nrows ncols row col data true))
  | .nd shape indices data, out =>
    out = (PyRes.ofExcept (PyNd.new shape indices data)).bind fun x => .ret (.nd x)
  | .un op a, out => ∃ oa, a.EvalAny envs oa ∧ oa.Then (UnMethod op) out
  | .bin op a b, out => ∃ oa, a.EvalAny envs oa ∧ oa.Then (fun x out => ∃ ob, b.EvalAny envs ob ∧
      ob.Then (fun y out => ∃ env, envs env ∧ BinObj env op x y out) out) out
  | .scalar op a alpha, out => ∃ oa, a.EvalAny envs oa ∧ oa.Then (fun x out => ScalarMethod op x alpha out) out
  | .left op alpha a, out => ∃ oa, a.EvalAny envs oa ∧ oa.Then (ScalarLeft op alpha) out
  | .T a, out => ∃ oa, a.EvalAny envs oa ∧ oa.Then (fun x out => ∃ env, envs env ∧ TMethod env x out) out
  | .prune eps a, out => ∃ oa, a.EvalAny envs oa ∧
      oa.Then (fun x out => ∃ env, envs env ∧ PruneMethod env eps x out) out
  | .elimZeros a, out => ∃ oa, a.EvalAny envs oa ∧
      oa.Then (fun x out => ∃ env, envs env ∧ PruneMethod env 0 x out) out
  | .ndop op arg a, out => ∃ oa, a.EvalAny envs oa ∧
      oa.Then (fun x out => ∃ env, envs env ∧ NdMethod env op arg x out) out
  | .mode f axis a, out => ∃ oa, a.EvalAny envs oa ∧
      oa.Then (fun x out => ∃ env, envs env ∧ ModeUnfold env f axis x out) out

end Lacuna
