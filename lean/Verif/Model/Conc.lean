import Verif.Model.Ptr
import Verif.Model.PtrSpmv
/-
Threads that share a vector of atomic counters.

The iterations of a parallel loop are tasks.  A task computes on its own, except that it may
perform `next[j].fetch_add(1, Relaxed)` on a shared `Vec<AtomicI64>` and store through raw
pointers into shared buffers.  A run executes the tasks in small steps, in any interleaving
(every assignment of iterations to worker threads is one of them).
-/
namespace Lacuna
variable {V : Type}

/-- A task with result type `α`: what it does next. -/
inductive Task (V : Type) (α : Type) where
  | ret (x : α)
  | fault (f : Fault)
  /-- `next[j].fetch_add(1, Relaxed)`; `k` receives the previous value -/
  | fetchAdd (j : Nat) (k : Int → Task V α)
  /-- stores to the shared buffers -/
  | store (e : Stores V) (k : Task V α)

namespace Task

/-- Sequential composition. -/
def bind {α β : Type} : Task V α → (α → Task V β) → Task V β
  | .ret x, f => f x
  | .fault e, _ => .fault e
  | .fetchAdd j k, f => .fetchAdd j fun d => (k d).bind f
  | .store e k, f => .store e (k.bind f)

instance : Monad (Task V) where
  pure := .ret
  bind := Task.bind

/-- Code that touches no shared state. -/
def lift {α : Type} : Except Fault α → Task V α
  | .ok x => .ret x
  | .error e => .fault e

instance : MonadLift (Except Fault) (Task V) where
  monadLift := lift

/-- `next[j].fetch_add(1, Relaxed)` as an instruction. -/
def claim (j : Nat) : Task V Int := .fetchAdd j .ret

/-- `ptr::write(pi.add(dst), x)` into the index buffer of `nnz` elements; the arguments are
evaluated from left to right. -/
def writeIdx (nnz dst : Nat) (x : Except Fault Int) : Task V Unit := do
  let q ← MutPtr.add ⟨nnz, 0⟩ dst
  let x ← x
  let w ← q.write x
  .store ([w], []) (.ret ())

/-- `ptr::write(pv.add(dst), v)` into the value buffer. -/
def writeVal (nnz dst : Nat) (v : Except Fault V) : Task V Unit := do
  let q ← MutPtr.add ⟨nnz, 0⟩ dst
  let v ← v
  let w ← q.write v
  .store ([], [w]) (.ret ())

/-- `for p in p0..p0 + k { body(p) }`. -/
def forUp (body : Nat → Task V Unit) : Nat → Nat → Task V Unit
  | 0, _ => .ret ()
  | k + 1, p => do
    body p
    forUp body k (p + 1)

/-- `while p < limit { body(p); p += step }` with loop bound `F`; returns the last `p`. -/
def stepUntil (limit step : Nat) (body : Nat → Task V Unit) : Nat → Nat → Task V Nat
  | 0, _ => .fault .fuel
  | F + 1, p =>
    if p < limit then do
      body p
      stepUntil limit step body F (p + step)
    else .ret p

end Task

/-- The stores of one task, later ones appended. -/
def Stores.add (s t : Stores V) : Stores V := (s.1 ++ t.1, s.2 ++ t.2)

/-- All runs of a group of tasks: counters, tasks, stores made so far by each task, outcome.
A task that has failed ends the run at any later time; a counter index out of range panics;
`fetch_add` wraps around. -/
inductive ConcRun : List Int → List (Task V Unit) → List (Stores V) →
    Except Fault (List (Stores V)) → Prop
  | done {next ts evs} (h : ∀ t ∈ ts, t = .ret ()) : ConcRun next ts evs (.ok evs)
  | fault {next ts evs} (i : Nat) {f : Fault} (h : ts[i]? = some (.fault f)) :
      ConcRun next ts evs (.error f)
  | claim {next ts evs out} (i : Nat) {j : Nat} {k : Int → Task V Unit} {d : Int}
      (h : ts[i]? = some (.fetchAdd j k)) (hd : next[j]? = some d)
      (hr : ConcRun (next.set j (wrapI64 (d + 1))) (ts.set i (k d)) evs out) :
      ConcRun next ts evs out
  | range {next ts evs} (i : Nat) {j : Nat} {k : Int → Task V Unit}
      (h : ts[i]? = some (.fetchAdd j k)) (hd : next[j]? = none) :
      ConcRun next ts evs (.error .panic)
  | store {next ts evs out} (i : Nat) {e : Stores V} {k : Task V Unit}
      (h : ts[i]? = some (.store e k))
      (hr : ConcRun next (ts.set i k) (evs.set i ((evs.getD i ([], [])).add e)) out) :
      ConcRun next ts evs out

/-- The result built from the stores of the iterations: a race if two of them store to the
same position, otherwise buffers of `nnz` zeros after the stores in any order. -/
def Assemble [Zero V] {α : Type} (nnz : Nat) (evs : List (Stores V)) (mk : List Int → List V → α)
    (out : Except Fault α) : Prop :=
  (¬ raceFree evs ∧ out = .error .ub) ∨
  (raceFree evs ∧ ∃ wi wv, wi.Perm (evs.flatMap Prod.fst) ∧ wv.Perm (evs.flatMap Prod.snd) ∧
    out = .ok (mk (applyWrites (List.replicate nnz 0) wi) (applyWrites (List.replicate nnz 0) wv)))

end Lacuna
