import Verif.Spec.Dense
import Mathlib.Data.List.Forall2
/-
Specification vocabulary for N-D arrays: keyed totals, in-bounds indices, row-major order.
-/
namespace Lacuna
universe u w
variable {V : Type u}

/-- The total of key `k` in a list of keyed contributions: the left-to-right sum of the
values listed under `k`, nothing if `k` does not occur. -/
def total {K : Type w} [BEq K] [Add V] (ops : List (K × V)) (k : K) : Option V :=
  match (ops.filter fun e => e.1 == k).map Prod.snd with
  | [] => none
  | v :: vs => some (vs.foldl (fun s x => s + x) v)

/-- `x` is an index of an array of the given shape. -/
def InBounds (shape : List Nat) (x : List Int) : Prop :=
  List.Forall₂ (fun (i : Int) (s : Nat) => 0 ≤ i ∧ i < s) x shape

/-- Row-major (C order) position of an index. -/
def rowMajor : List Nat → List Int → Nat
  | _ :: ss, i :: is => i.toNat * ss.prod + rowMajor ss is
  | _, _ => 0

/-- All indices of an array of the given shape. -/
def indicesOf : List Nat → List (List Int)
  | [] => [[]]
  | s :: ss => (List.range s).flatMap fun (i : Nat) => (indicesOf ss).map fun x => Int.ofNat i :: x

/-- The components of `x` along the given axes. -/
def select (axes : List Nat) (x : List Int) : List Int := axes.map fun d => x.getD d 0

/-- The axes of an array of rank `ndim` that are not listed. -/
def restAxes (ndim : Nat) (axes : List Nat) : List Nat := (List.range ndim).filter fun d => !(axes.contains d)

/-- No product of trailing dimensions exceeds `usize::MAX`. -/
def NoOverflow (shape : List Nat) : Prop := ∀ t, t <:+ shape → t.prod ≤ usizeMax

/-- The stored coordinates are machine integers (automatic in Rust). -/
def CooNd.I64 (a : CooNd V) : Prop := ∀ i ∈ a.indices, i ≤ i64Max

/-- Canonical N-D array: the coordinates are strictly increasing in lexicographic order
(hence also unique). -/
def CooNd.Sorted (a : CooNd V) : Prop := (a.entries.map Prod.fst).Pairwise (fun x y => x < y)

/-- No stored value is (IEEE-)equal to zero. -/
def CooNd.NoZeros [BEq V] [Zero V] (a : CooNd V) : Prop := ∀ v ∈ a.data, (v == 0) = false

/-- A correct implementation of `sort_unstable_by_key(|(k, _)| *k)`: some sorted
permutation of its input. -/
def IsSort (sort : List (Nat × V) → List (Nat × V)) : Prop :=
  ∀ l, (sort l).Perm l ∧ (sort l).Pairwise (fun a b => a.1 ≤ b.1)

/-- Dimension `k` counted from the right; missing dimensions count as 1. -/
def dimFromRight (shape : List Nat) (k : Nat) : Nat := shape.reverse.getD k 1

/-- NumPy broadcasting: aligned from the right, the dimensions are equal or one of them
is 1, and `out` takes the larger. -/
structure IsBroadcast (sa sb out : List Nat) : Prop where
  rank : out.length = max sa.length sb.length
  compat : ∀ k, dimFromRight sa k = dimFromRight sb k ∨ dimFromRight sa k = 1 ∨ dimFromRight sb k = 1
  dim : ∀ k, dimFromRight out k = max (dimFromRight sa k) (dimFromRight sb k)

/-- The operand index that output index `y` reads: drop the extra leading axes, and use 0 on
axes of extent 1. -/
def bcastIndex (shape : List Nat) (y : List Int) : List Int :=
  List.zipWith (fun (s : Nat) (i : Int) => if s = 1 then 0 else i) shape (y.drop (y.length - shape.length))

end Lacuna
