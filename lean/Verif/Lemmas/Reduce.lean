import Verif.Model.Reduce
import Verif.Lemmas.Scalar
import Mathlib.Algebra.BigOperators.Group.List.Basic
/-
Reductions with an associative and commutative operation do not depend on lanes, chunks or
the reduction tree.
-/
namespace Lacuna
universe u
variable {V : Type u}

/-- `op` with neutral element `e` on everything satisfying `P`. -/
structure IsMonoid (op : V → V → V) (e : V) : Prop where
  assoc : ∀ a b c, op (op a b) c = op a (op b c)
  comm : ∀ a b, op a b = op b a
  unit : ∀ a, op e a = a

namespace IsMonoid
variable {op : V → V → V} {e : V}

theorem unit' (h : IsMonoid op e) (a : V) : op a e = a := by rw [h.comm, h.unit]

theorem foldl_start (h : IsMonoid op e) (l : List V) (s : V) : l.foldl op s = op s (l.foldl op e) := by
  induction l generalizing s with
  | nil => simp [h.unit']
  | cons x l ih => rw [List.foldl_cons, List.foldl_cons, ih, ih (op e x), h.unit, h.assoc]

theorem foldl_append (h : IsMonoid op e) (l r : List V) :
    (l ++ r).foldl op e = op (l.foldl op e) (r.foldl op e) := by
  rw [List.foldl_append, h.foldl_start]

theorem foldl_perm (h : IsMonoid op e) {l r : List V} (hp : l.Perm r) : l.foldl op e = r.foldl op e := by
  have : RightCommutative op := ⟨fun a b c => by rw [h.assoc, h.comm b c, ← h.assoc]⟩
  exact hp.foldl_eq e

theorem foldl_flatten (h : IsMonoid op e) (L : List (List V)) :
    (L.map fun l => l.foldl op e).foldl op e = L.flatten.foldl op e := by
  induction L with
  | nil => rfl
  | cons l L ih =>
    rw [List.map_cons, List.foldl_cons, h.foldl_start, h.unit, ih, List.flatten_cons, h.foldl_append]

theorem foldl_replicate (h : IsMonoid op e) (n : Nat) : (List.replicate n e).foldl op e = e := by
  induction n with
  | zero => rfl
  | succ n ih => rw [List.replicate_succ, List.foldl_cons, h.unit, ih]

theorem lanes4_eq (h : IsMonoid op e) (acc : V × V × V × V) (l : List V) :
    (lanes4 op acc l).2.foldl op
        (op (op (op (lanes4 op acc l).1.1 (lanes4 op acc l).1.2.1) (lanes4 op acc l).1.2.2.1)
          (lanes4 op acc l).1.2.2.2) =
      l.foldl op (op (op (op acc.1 acc.2.1) acc.2.2.1) acc.2.2.2) := by
  induction acc, l using lanes4.induct op with
  | case1 a b c d x0 x1 x2 x3 rest ih =>
    rw [lanes4, ih]
    simp only [List.foldl_cons]
    congr 1
    have ac : ∀ a b c, op a (op b c) = op b (op a c) := fun a b c => by
      rw [← h.assoc, h.comm a b, h.assoc]
    simp only [h.assoc]
    rw [ac x0 b, ac x0 x1, ac x0 c, ac x1 c, ac x0 x2, ac x0 d, ac x1 x2, ac x1 d, ac x2 d]
    simp only [ac x0 x1, ac x1 x2, ac x0 x2]
  | case2 acc l hne =>
    rw [lanes4]
    exact hne

theorem simdFold_eq (h : IsMonoid op e) (l : List V) : simdFold op op op e l = l.foldl op e := by
  have := h.lanes4_eq (e, e, e, e) l
  simp only [h.unit] at this
  exact this

theorem rayon_eq (h : IsMonoid op e) {l : List V} {r : V} (hr : Rayon op e l r) : r = l.foldl op e := by
  induction hr with
  | unit => rfl
  | one x => simp [h.unit]
  | join _ _ h1 h2 => rw [h.foldl_append, h1, h2]

end IsMonoid

/-- There is always a run. -/
theorem rayon_exists (op : V → V → V) (e : V) (l : List V) : ∃ r, Rayon op e l r := by
  induction l with
  | nil => exact ⟨e, .unit⟩
  | cons x l ih =>
    obtain ⟨r, hr⟩ := ih
    exact ⟨op x r, Rayon.join (.one x) hr⟩

/-- Chunked parallel reduction = plain left fold. -/
theorem IsMonoid.chunkReduce_eq {op : V → V → V} {e : V} (h : IsMonoid op e) {f : List V → V}
    (hf : ∀ l, f l = l.foldl op e) {data : List V} {r : V} (hr : ChunkReduce f op e data r) :
    r = data.foldl op e := by
  rw [h.rayon_eq hr, show f = fun l => l.foldl op e from funext hf, h.foldl_flatten,
    chunksOf_flatten (by decide)]

theorem add_isMonoid [AddCommMonoid V] : IsMonoid (fun x y : V => x + y) 0 :=
  ⟨add_assoc, add_comm, zero_add⟩

theorem mul_isMonoid [CommMonoid V] : IsMonoid (fun x y : V => x * y) 1 :=
  ⟨mul_assoc, mul_comm, one_mul⟩

theorem foldl_add_eq_sum [AddMonoid V] (l : List V) : l.foldl (fun x y => x + y) 0 = l.sum :=
  (List.sum_eq_foldl).symm

theorem foldl_mul_eq_prod [Monoid V] (l : List V) : l.foldl (fun x y => x * y) 1 = l.prod :=
  (List.prod_eq_foldl).symm

end Lacuna
