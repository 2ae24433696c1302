import Verif.Spec.Dense
/-
What the raw-pointer kernels need in order to stay inside their buffers.
-/
namespace Lacuna
universe u
variable {V : Type u}

/-- The pointers of a compressed matrix are non-negative, non-decreasing and point into both
arrays.  Nothing is said about the stored indices: they may be unsorted, repeated, negative
or out of range, and the arrays may be longer than the last pointer says. -/
structure Comp.PtrOk (a : Comp V) : Prop where
  ptr_length : a.n < a.indptr.length
  ptr_first : 0 ≤ a.indptr.getD 0 0
  ptr_mono : ∀ i, i < a.n → a.indptr.getD i 0 ≤ a.indptr.getD (i + 1) 0
  last_indices : a.indptr.getD a.n 0 ≤ a.indices.length
  last_data : a.indptr.getD a.n 0 ≤ a.data.length

/-- Automatic in Rust: an allocation has at most `isize::MAX` bytes, the elements of the three
vectors have 8 bytes each, and the stored indices are `i64`. -/
structure Comp.Machine (a : Comp V) : Prop where
  indptr : 8 * (a.indptr.length : Int) ≤ i64Max
  indices : 8 * (a.indices.length : Int) ≤ i64Max
  data : 8 * (a.data.length : Int) ≤ i64Max
  i64 : ∀ j ∈ a.indices, j ≤ i64Max

end Lacuna
