import Verif.Spec.PyBits
import Verif.Spec.PyReduce
import Verif.Spec.Rounding
import Verif.Model.PyStat
/-
What a reduction computes in whatever arithmetic the machine has.  No algebraic law is used: with
`+`, `*`, `/`, `<`, `==`, … read as the IEEE operations this is what happens with rounding, infinities,
signed zeros and NaN.  The kernels do not promise an order, so the results are described by the ways in
which they may come about.
-/
namespace Lacuna
variable {V : Type}

/-- `r` comes from the numbers in `s`, each used once, by joining them two at a time in some order and
grouping; `e` may be thrown in anywhere.  `join a b c` says that joining `a` and `b` can give `c`. -/
inductive JoinTree (join : V → V → V → Prop) (e : V) : Multiset V → V → Prop
  | unit : JoinTree join e 0 e
  | leaf (x : V) : JoinTree join e {x} x
  | node {s t : Multiset V} {a b c : V} : JoinTree join e s a → JoinTree join e t b → join a b c → JoinTree join e (s + t) c

section
variable [HasLt V] [HasMinMax V]

/-- The smaller of two numbers: by `f64::min`, by the minimum of vector lanes, or by a comparison. -/
def MinJoin (a b c : V) : Prop := c = fmin a b ∨ c = vmin a b ∨ c = if flt b a then b else a
/-- The larger of two numbers. -/
def MaxJoin (a b c : V) : Prop := c = fmax a b ∨ c = vmax a b ∨ c = if flt a b then b else a

end

/-- The variance of `k` cells with sum `t` and sum of squares `q`: zero instead of a division by zero or
less, and zero instead of a negative number. -/
def varOf [Zero V] [Sub V] [Mul V] [Div V] [NatCast V] [HasLt V] [BEq V] (t q : V) (k : Nat) (c : V) : V :=
  if k = 0 then 0
  else if flt ((k : V) - c) 0 || (k : V) - c == 0 then 0
  else if flt ((q - t * t / (k : V)) / ((k : V) - c)) 0 then 0
  else (q - t * t / (k : V)) / ((k : V) - c)

section
variable [Zero V] [One V] [Add V] [Sub V] [Mul V] [Div V] [BEq V] [NatCast V] [HasLt V] [HasMinMax V] [HasSqrt V]

/-- `r` is the reduction of `k` cells in which the numbers `s` are stored.

* `sum`: the stored numbers are added; `mean` divides that by the number of cells;
* `prod`: zero if fewer numbers are stored than there are cells, otherwise the product of the stored ones;
* `var`, `std`: from the sum and the sum of the squares of the stored numbers and the number of cells
  (counted up to the largest machine word);
* `min`, `max`: zero if there is no cell, otherwise the extremum of the stored numbers, and of a zero if
  fewer numbers are stored than there are cells. -/
def RedOp.Computes (op : RedOp V) (k : Nat) (s : Multiset V) (r : V) : Prop :=
  match op with
  | .sum => AddTree s r
  | .mean => ∃ t, AddTree s t ∧ r = t / (k : V)
  | .prod => if s.card < k then r = 0 else JoinTree (fun a b c => c = a * b) 1 s r
  | .var c => ∃ t q, AddTree s t ∧ AddTree (s.map fun x => x * x) q ∧ r = varOf t q (Nat.min k usizeMax) c
  | .std c => ∃ t q, AddTree s t ∧ AddTree (s.map fun x => x * x) q ∧ r = fsqrt (varOf t q (Nat.min k usizeMax) c)
  | .min => if k = 0 then r = 0 else JoinTree MinJoin posInf (if s.card < k then 0 ::ₘ s else s) r
  | .max => if k = 0 then r = 0 else JoinTree MaxJoin negInf (if s.card < k then 0 ::ₘ s else s) r

/-- The same for a list of cells, each given by the numbers stored in it. -/
def RedOp.OfCells (op : RedOp V) (cells : List (List V)) (r : V) : Prop :=
  op.Computes cells.length (cells.flatten : Multiset V) r

/-- `all` and `any` of a list of possibly missing entries: true are those that are there and not zero (a
NaN is not zero). -/
def LogicOp.over (op : LogicOp) (sums : List (Option V)) : Bool :=
  match op with
  | .all => sums.all fun o => o.any fun v => !(v == 0)
  | .any => sums.any fun o => o.any fun v => !(v == 0)

/-- `all` and `any` of a list of cells, each given by the numbers stored in it: these are added up first,
in some order. -/
def LogicOp.OfCells (op : LogicOp) (cells : List (List V)) (r : Bool) : Prop :=
  ∃ sums : List (Option V), List.Forall₂ (fun l o => ∃ l', l'.Perm l ∧ o = sumAll l') cells sums ∧ r = op.over sums

end

/-- The numbers stored at index `x`, in storage order. -/
def SpVal.held (v : SpVal V) (x : List Int) : List V := valuesAt v.stores x

end Lacuna
