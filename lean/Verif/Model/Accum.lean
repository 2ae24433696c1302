import Verif.Model.HashMap
/-
The thread-local accumulation schemes shared by the scatter kernels
(matrix-vector products: crates/lacuna-kernels/src/linalg/matmul.rs 61–207, 310–430;
row/column sums: crates/lacuna-kernels/src/statistical/sum.rs 280–752;
vecdot: crates/lacuna-kernels/src/linalg/vecdot.rs 90–183, 440–473).

Every scheme consumes operations `(k, v)`, meaning "add `v` to output slot `k`".  The work
items of a parallel loop are lists of such operations; each thread executes some of the
items one after the other on its own accumulator, and the accumulators are finally added
into the zero-filled output.  `groups` below is the list of threads in the order in which
their accumulators are merged, each with all operations it executed, in order.
-/
namespace Lacuna
universe u
variable {V : Type u}

/-- `y[k] += v`. -/
def addAt [Zero V] [Add V] (y : List V) (k : Nat) (v : V) : List V := y.set k (y.getD k 0 + v)

/-- A sequence of `y[k] += v` (unchecked positions). -/
def addAll [Zero V] [Add V] (y : List V) (ops : List (Nat × V)) : List V :=
  ops.foldl (fun y o => addAt y o.1 o.2) y

/-- A sequence of `y[k] += v` with bounds check (`none`: index panic). -/
def addAll? [Zero V] [Add V] (y : List V) (ops : List (Nat × V)) : Option (List V) :=
  ops.foldlM (fun y o => if o.1 < y.length then some (addAt y o.1 o.2) else none) y

/-- Plain dense accumulators (sum.rs 288–320): each thread owns a vector of length `n`;
merging adds all slots (four at a time, then the rest: the slots are distinct, so this is
a loop over all of them). -/
def accumPlain [Zero V] [Add V] (n : Nat) (groups : List (List (Nat × V))) : Option (List V) :=
  (groups.mapM (addAll? (List.replicate n 0))).map fun locals =>
    locals.foldl (fun y l => addAll y ((List.range n).map fun c => (c, l.getD c 0)))
      (List.replicate n 0)

/-- Hash map accumulators (matmul.rs 105–124 and 342–360, sum.rs 326–345, 450–468, 578–598,
661–683, vecdot.rs 449–472): each thread owns a `UsizeF64Map` with capacity 1024;
merging drains it into the output. -/
def accumHash [Zero V] [Add V] (n cap : Nat) (groups : List (List (Nat × V))) : Option (List V) :=
  (groups.mapM (HMap.insertAll (HMap.withCapacity cap : HMap V))).map fun maps =>
    maps.foldl (fun y m => m.drainTo y) (List.replicate n 0)

/-- The triple `(vals, seen, touched)` used by the dense and striped accumulators
(`StripeAccs`, util.rs; matmul.rs 126–160). -/
structure TouchAcc (V : Type u) where
  vals : List V
  seen : List Bool
  touched : List Nat

namespace TouchAcc

/-- `(vec![0.0; n], vec![0u8; n], Vec::new())`. -/
def empty [Zero V] (n : Nat) : TouchAcc V := ⟨List.replicate n 0, List.replicate n false, []⟩

/-- `if seen[i] == 0 { seen[i] = 1; touched.push(i); } vals[i] += v;`
(`none`: index panic). -/
def add [Zero V] [Add V] (c : TouchAcc V) (i : Nat) (v : V) : Option (TouchAcc V) :=
  match c.seen[i]? with
  | none => none
  | some false => some ⟨addAt c.vals i v, c.seen.set i true, c.touched ++ [i]⟩
  | some true => some ⟨addAt c.vals i v, c.seen, c.touched⟩

/-- The additions made when merging: all `len` slots if more than half of them were touched,
otherwise the touched slots only. -/
def updates [Zero V] (c : TouchAcc V) (base len : Nat) : List (Nat × V) :=
  if c.touched.length > len / 2 then (List.range len).map fun i => (base + i, c.vals.getD i 0)
  else c.touched.map fun i => (base + i, c.vals.getD i 0)

end TouchAcc

/-- All operations of one thread on a dense accumulator. -/
def touchCell [Zero V] [Add V] (n : Nat) (ops : List (Nat × V)) : Option (TouchAcc V) :=
  ops.foldlM (fun c o => c.add o.1 o.2) (TouchAcc.empty n)

/-- Dense accumulators with a touched list (matmul.rs 126–160, 362–396). -/
def accumTouch [Zero V] [Add V] (n : Nat) (groups : List (List (Nat × V))) : Option (List V) :=
  (groups.mapM (touchCell n)).map fun cells =>
    cells.foldl (fun y c => addAll y (c.updates 0 n)) (List.replicate n 0)

/-- One operation on a striped accumulator: the accumulator of a stripe is created on first
use with length `(n - base).min(stripe)` (matmul.rs 166–187, sum.rs 379–393). -/
def stripeAdd [Zero V] [Add V] (n stripe : Nat) (accs : List (Option (TouchAcc V)))
    (k : Nat) (v : V) : Option (List (Option (TouchAcc V))) :=
  let sid := k / stripe
  let base := sid * stripe
  let off := k - base
  match accs[sid]? with
  | none => none
  | some o =>
    ((o.getD (TouchAcc.empty (min (n - base) stripe))).add off v).map fun c => accs.set sid (some c)

/-- All operations of one thread on a striped accumulator; `nstripes = n.div_ceil(stripe)`. -/
def stripeCell [Zero V] [Add V] (n stripe : Nat) (ops : List (Nat × V)) :
    Option (List (Option (TouchAcc V))) :=
  ops.foldlM (fun accs o => stripeAdd n stripe accs o.1 o.2)
    (List.replicate ((n + stripe - 1) / stripe) none)

/-- The additions made for stripe `sid` of one thread's accumulator when the length is read
off the accumulator (`vals.len()`). -/
def stripeUpdatesSeq [Zero V] (stripe : Nat) (accs : List (Option (TouchAcc V))) (sid : Nat) :
    List (Nat × V) :=
  match accs.getD sid none with
  | none => []
  | some c => c.updates (sid * stripe) c.vals.length

/-- The same with the length recomputed as `(n - base).min(stripe)`. -/
def stripeUpdates [Zero V] (n stripe : Nat) (accs : List (Option (TouchAcc V))) (sid : Nat) :
    List (Nat × V) :=
  match accs.getD sid none with
  | none => []
  | some c => c.updates (sid * stripe) (min (n - sid * stripe) stripe)

/-- Striped accumulators merged thread after thread, stripe after stripe
(matmul.rs 189–206, 410–428, sum.rs 500–527, 624–643, vecdot.rs 159–182). -/
def accumStripe [Zero V] [Add V] (n stripe : Nat) (groups : List (List (Nat × V))) :
    Option (List V) :=
  (groups.mapM (stripeCell n stripe)).map fun cells =>
    cells.foldl (fun y accs =>
        addAll y ((List.range accs.length).flatMap (stripeUpdatesSeq stripe accs)))
      (List.replicate n 0)

/-- Striped accumulators merged in parallel over the stripes (sum.rs 396–437, 711–751): the
additions of all stripes and threads happen in some order (`sched`).  Different stripes
write different slots. -/
def AccumStripePar [Zero V] [Add V] (n stripe : Nat) (groups : List (List (Nat × V)))
    (y : List V) : Prop :=
  ∃ cells, groups.mapM (stripeCell n stripe) = some cells ∧
    ∃ sched : List (Nat × V),
      sched.Perm ((List.range ((n + stripe - 1) / stripe)).flatMap fun sid =>
        cells.flatMap fun accs => stripeUpdates n stripe accs sid) ∧
      y = addAll (List.replicate n 0) sched

/-- A division of the work items of a parallel loop over threads: every item is executed
exactly once.  The threads are listed in merge order. -/
def Division {α : Type u} (items : List α) (groups : List (List α)) : Prop :=
  groups.flatten.Perm items

end Lacuna
