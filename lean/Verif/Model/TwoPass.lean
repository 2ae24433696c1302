import Verif.Spec.Dense
/-
The common skeleton of the two-pass kernels (count, prefix sum, parallel fill).
-/
namespace Lacuna
universe u
variable {V : Type u}

/-- The prefix-sum loop `indptr[i + 1] = indptr[i] + counts[i]` starting at `s`
(add.rs 223–226 and the identical loops of every other two-pass kernel). -/
def ptrFrom (s : Nat) : List Nat → List Nat
  | [] => [s]
  | c :: cs => s :: ptrFrom (s + c) cs

/-- `indptr` computed from per-line counts, as `i64`. -/
def prefixPtr (counts : List Nat) : List Int := (ptrFrom 0 counts).map Int.ofNat

/-- Execute single memory writes `(position, value)` in order on a buffer
(`std::ptr::write(p.add(pos), v)`).  Out-of-range writes are dropped; that none occur
is a separate theorem. -/
def applyWrites {α : Type u} (buf : List α) (ws : List (Nat × α)) : List α :=
  ws.foldl (fun b w => b.set w.1 w.2) buf

/-- The writes of one line: `ptr::write(out.add(start + d), x_d)` for `d = 0, 1, ...`
(add.rs 160–166: `dst` counts up from 0). -/
def lineWrites {α : Type u} (start : Nat) : List α → List (Nat × α)
  | [] => []
  | x :: xs => (start, x) :: lineWrites (start + 1) xs

/-- All single writes of the fill pass (add.rs 235–259) in program order: line `i`
writes its results `outs[i]` from position `starts[i]` on. -/
def fillWrites {α : Type u} (starts : List Nat) (outs : List (List α)) : List (Nat × α) :=
  (starts.zip outs).flatMap fun p => lineWrites p.1 p.2

/-- The output of a two-pass kernel (add.rs 194–261 and the analogous functions), given
the per-line counts, the per-line results of the fill routine and the actual order
`wi`, `wv` in which the writes to the index and to the value buffer happened. -/
def twoPassOut [Zero V] (m : Nat) (counts : List Nat)
    (wi : List (Nat × Int)) (wv : List (Nat × V)) : Comp V :=
  let indptr := prefixPtr counts
  let nnz := (indptr.getD counts.length 0).toNat
  { n := counts.length, m := m, indptr := indptr
    indices := applyWrites (List.replicate nnz 0) wi
    data := applyWrites (List.replicate nnz 0) wv }

/-- The result of a two-pass kernel when the fill is executed in program order. -/
def twoPass [Zero V] (m : Nat) (counts : List Nat) (outs : List (List (Int × V))) : Comp V :=
  twoPassOut m counts
    (fillWrites (ptrFrom 0 counts) (outs.map (·.map Prod.fst)))
    (fillWrites (ptrFrom 0 counts) (outs.map (·.map Prod.snd)))

/-- All possible results of a two-pass kernel: the parallel threads may interleave
their single writes in any order. -/
def TwoPassRun [Zero V] (m : Nat) (counts : List Nat) (outs : List (List (Int × V)))
    (r : Comp V) : Prop :=
  ∃ wi wv,
    wi.Perm (fillWrites (ptrFrom 0 counts) (outs.map (·.map Prod.fst))) ∧
    wv.Perm (fillWrites (ptrFrom 0 counts) (outs.map (·.map Prod.snd))) ∧
    r = twoPassOut m counts wi wv

end Lacuna
