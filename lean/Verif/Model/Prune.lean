import Verif.Model.Scalar
/-
Removal of small entries (crates/lacuna-kernels/src/utility/prune.rs, eliminate_zeros.rs).
-/
namespace Lacuna
universe u
variable {V : Type u}

section
variable [HasLt V] [HasAbs V]

/-- The test `value.abs() > eps`. -/
def significant (eps v : V) : Bool := flt eps (fabs v)

/-- `count_significant` (prune.rs 36–67): blocks of four lanes, then the scalar tail;
`retained` is the running counter. -/
def countSig (eps : V) : List V → Nat → Nat
  | a :: b :: c :: d :: t, retained =>
    let r0 := if significant eps a then retained + 1 else retained
    let r1 := if significant eps b then r0 + 1 else r0
    let r2 := if significant eps c then r1 + 1 else r1
    let r3 := if significant eps d then r2 + 1 else r2
    countSig eps t r3
  | l, retained => l.foldl (fun r v => if significant eps v then r + 1 else r) retained

/-- `copy_significant_entries` (prune.rs 71–86) and the inner loop of the parallel path
(prune.rs 192–206): the pairs written, in order. -/
def copySig (eps : V) (r : Row V) : Row V := r.filter fun e => significant eps e.2

/-- Per-line counts of `prune_eps` / `prune_eps_csc` (prune.rs 132–138, 163–171).  Lines are
enumerated by `indptr.windows(2)`; there are `n` of them when `indptr.len() = n + 1`. -/
def pruneCounts (eps : V) (a : Comp V) : List Nat :=
  (List.range a.n).map fun i => countSig eps ((a.row i).map Prod.snd) 0

/-- Per-line entries written (prune.rs 142–158, 185–207). -/
def pruneOuts (eps : V) (a : Comp V) : List (Row V) :=
  (List.range a.n).map fun i => copySig eps (a.row i)

/-- `SMALL_NNZ_PRUNE` (prune.rs 11). -/
def smallNnzPrune : Nat := 16384

/-- The early return: negative `eps`, or `eps == 0` and no stored zero (prune.rs 236–244). -/
def pruneSkips [Zero V] [BEq V] (eps : V) (data : List V) : Bool :=
  flt eps 0 || (eps == 0 && !data.any fun v => v == 0)

/-- All possible results of `prune_eps` / `prune_eps_csc` (prune.rs 118–209, 235–326):
the early return, the sequential path, or the parallel path under any schedule. -/
def PruneRun [Zero V] [BEq V] (eps : V) (a r : Comp V) : Prop :=
  (pruneSkips eps a.data = true ∧ r = a) ∨
  (pruneSkips eps a.data = false ∧ a.data.length < smallNnzPrune ∧
    r = twoPass a.m (pruneCounts eps a) (pruneOuts eps a)) ∨
  (pruneSkips eps a.data = false ∧ smallNnzPrune ≤ a.data.length ∧
    TwoPassRun a.m (pruneCounts eps a) (pruneOuts eps a) r)

/-- `prune_eps` (prune.rs 235–326). -/
def PruneCsr [Zero V] [BEq V] (a : Csr V) (eps : V) (r : Csr V) : Prop := PruneRun eps a.comp r.comp
/-- `prune_eps_csc` (prune.rs 118–209). -/
def PruneCsc [Zero V] [BEq V] (a : Csc V) (eps : V) (r : Csc V) : Prop := PruneRun eps a.comp r.comp

/-- `prune_eps_coo` (prune.rs 214–230).  The three arrays are read at the same positions,
so they are zipped (equal lengths are a well-formedness condition). -/
def pruneCoo [Zero V] (a : Coo V) (eps : V) : Coo V :=
  if flt eps 0 then a
  else
    let kept := a.triples.filter fun t => significant eps t.2
    { a with row := kept.map (·.1.1), col := kept.map (·.1.2), data := kept.map Prod.snd }

/-- `prune_eps_coond` (prune.rs 91–113). -/
def pruneCooNd [Zero V] (a : CooNd V) (eps : V) : CooNd V :=
  if flt eps 0 then a
  else if a.data.length = 0 then a
  else
    let kept := a.entries.filter fun e => significant eps e.2
    { a with indices := kept.flatMap Prod.fst, data := kept.map Prod.snd }

/-- `eliminate_zeros` (eliminate_zeros.rs 7–9). -/
def EliminateZerosCsr [Zero V] [BEq V] (a r : Csr V) : Prop := PruneCsr a 0 r
/-- `eliminate_zeros_csc` (eliminate_zeros.rs 22–24). -/
def EliminateZerosCsc [Zero V] [BEq V] (a r : Csc V) : Prop := PruneCsc a 0 r
/-- `eliminate_zeros_coo` (eliminate_zeros.rs 12–14). -/
def eliminateZerosCoo [Zero V] (a : Coo V) : Coo V := pruneCoo a 0
/-- `eliminate_zeros_coond` (eliminate_zeros.rs 17–19). -/
def eliminateZerosCooNd [Zero V] (a : CooNd V) : CooNd V := pruneCooNd a 0

end
end Lacuna
