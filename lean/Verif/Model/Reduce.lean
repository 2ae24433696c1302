import Verif.Model.Scalar
/-
Building blocks of the reduction kernels (crates/lacuna-kernels/src/statistical/): the loop
with four SIMD lanes over one chunk, and rayon's parallel reduction of the chunk results.
-/
namespace Lacuna
universe u
variable {V : Type u}

/-- The SIMD loop `while i < limit4 { acc = op(acc, chunk[i..i+4]); i += 4 }`: four lanes
advance together; the fewer than four remaining values are returned (sum.rs 39–50,
prod.rs 28–38, minmax.rs 23–32). -/
def lanes4 (op : V → V → V) : V × V × V × V → List V → (V × V × V × V) × List V
  | (a, b, c, d), x0 :: x1 :: x2 :: x3 :: rest => lanes4 op (op a x0, op b x1, op c x2, op d x3) rest
  | acc, l => (acc, l)

/-- A whole chunk: the lanes start at `e`, are combined as
`comb (comb (comb a0 a1) a2) a3`, then the remaining values are taken one by one with `tail`. -/
def simdFold (lane comb tail : V → V → V) (e : V) (chunk : List V) : V :=
  let s := lanes4 lane (e, e, e, e) chunk
  s.2.foldl tail (comb (comb (comb s.1.1 s.1.2.1) s.1.2.2.1) s.1.2.2.2)

/-- The results rayon's `reduce(|| e, op)` (and `sum()`) may produce for a sequence of items:
the sequence is split into contiguous parts in any way; identities may be inserted anywhere. -/
inductive Rayon (op : V → V → V) (e : V) : List V → V → Prop
  | unit : Rayon op e [] e
  | one (x : V) : Rayon op e [x] x
  | join {l r : List V} {x y : V} : Rayon op e l x → Rayon op e r y → Rayon op e (l ++ r) (op x y)

/-- `data.par_chunks(4096).map(f).reduce(|| e, op)`. -/
def ChunkReduce (f : List V → V) (op : V → V → V) (e : V) (data : List V) (r : V) : Prop :=
  Rayon op e ((chunksOf 4096 data).map f) r

end Lacuna
