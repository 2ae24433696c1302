import Verif.Spec.PyMeaning
import Verif.Spec.Elementwise
/-
What a Python program over the sparse classes computes, operation by operation, in whatever
arithmetic the machine has: no algebraic law is used, so the definitions can be read with `+`, `*`,
`/`, `==`, … as the IEEE operations.  The value of a program is the list of its stored entries in
storage order.
-/
namespace Lacuna
variable {V : Type}

/-- The stored entries of an object, in storage order. -/
def SpVal.stores : SpVal V → List (List Int × V)
  | .mat .csr a => (List.range a.n).flatMap fun (i : Nat) => (a.row i).map fun e => ([(i : Int), e.1], e.2)
  | .mat .csc a => (List.range a.n).flatMap fun (j : Nat) => (a.row j).map fun e => ([e.1, (j : Int)], e.2)
  | .coo a => a.triples.map fun t => ([t.1.1, t.1.2], t.2)
  | .nd a => a.entries

/-- The cells of an array in the order in which its class stores them: by columns in `CSC`, by rows
otherwise. -/
def Ty.order : Ty → List (List Int)
  | .mat .csc r c => (indicesOf [c, r]).map List.reverse
  | τ => indicesOf τ.shape

/-- The entries of a partial array. -/
def tabulate (xs : List (List Int)) (g : List Int → Option V) : List (List Int × V) :=
  xs.filterMap fun x => (g x).map fun v => (x, v)

/-- What is stored under `x`, in storage order. -/
def valuesAt {K : Type} [BEq K] (l : List (K × V)) (x : K) : List V := (l.filter fun e => e.1 == x).map Prod.snd

/-- The sum of some numbers from left to right; nothing if there are none. -/
def sumAll [Add V] : List V → Option V
  | [] => none
  | v :: vs => some (vs.foldl (fun s x => s + x) v)

section
variable [Zero V] [One V] [Neg V] [Add V] [Sub V] [Mul V] [Div V] [NatCast V] [BEq V] [HasFinite V] [HasFloor V]
  [HasPowf V] [HasAbs V] [HasLt V] [HasNan V]

/-- `v * alpha`, except that the factor `1` does nothing and the factor `0` gives `0` (also for an
infinite `v` or a `NaN`). -/
def scaleBits (alpha v : V) : V := if alpha == 1 then v else if alpha == 0 then 0 else v * alpha

/-- `abs`, `negative`, `sign`. -/
def UnOp.bits (op : UnOp) (v : V) : V :=
  match op with
  | .abs => fabs v
  | .neg => scaleBits (-1) v
  | .sign => if isNan v then nan else if flt 0 v then 1 else if flt v 0 then -1 else 0

/-- `v op alpha` for the operators with a scalar variant; division multiplies by the reciprocal. -/
def BinOp.scalarBits (op : BinOp) (alpha v : V) : V :=
  match op with
  | .mul => scaleBits alpha v
  | .div => scaleBits (1 / alpha) v
  | .floordiv => HasFloor.floor (v / alpha)
  | .rem => v - alpha * HasFloor.floor (v / alpha)
  | .pow => HasPowf.powf v alpha
  | _ => v

/-- `x op y` for two possibly missing entries of matrices.  Entries are added to a zero first; a sum,
difference or product is stored unless it is zero; a quotient, remainder or power is stored if both
entries are there, the divisor is not zero and the result is finite and not zero. -/
def BinOp.bits (op : BinOp) : Option V → Option V → Option V :=
  match op with
  | .add => unionCell fun x y => x + y
  | .sub => unionCell fun x y => x - y
  | .mul => interCell fun x y => if x * y == 0 then none else some (x * y)
  | .div => interCell fun x y => if y == 0 then none else keepFinite isFinite (x / y)
  | .floordiv => interCell fun x y => if y == 0 then none else keepFinite isFinite (HasFloor.floor (x / y))
  | .rem => interCell fun x y => if y == 0 then none else keepFinite isFinite (x - y * HasFloor.floor (x / y))
  | .pow => interCell fun x y => keepFinite isFinite (HasPowf.powf x y)

/-- `prune(eps)` keeps the entries with `|v| > eps`; it keeps everything if `eps` is negative, and in
the compressed classes also if `eps` is zero and no stored entry equals zero (then a stored `NaN`
survives). -/
def pruneBits (compressed : Bool) (eps : V) (l : List (List Int × V)) : List (List Int × V) :=
  if flt eps 0 then l
  else if compressed && eps == 0 && !(l.any fun e => e.2 == 0) then l
  else l.filter fun e => flt eps (fabs e.2)

/-- Is it a `CSR` or `CSC` object? -/
def Ty.compressed : Ty → Bool
  | .mat _ _ _ => true
  | _ => false

/-- The index an entry gets when the axes `xs` become the rows. -/
def unfoldIndex (s xs : List Nat) (x : List Int) : List Int := [(unfoldRow s xs x : Int), (unfoldCol s xs x : Int)]

/-- The methods of N-D arrays on an array of shape `s` with stored entries `l`; `order` lists the
cells of the result. -/
def NdOp.bits (op : NdOp) (s xs : List Nat) (order : List (List Int)) (l : List (List Int × V)) : List (List Int × V) :=
  match op with
  | .reshape => l.map fun e => (unravel xs (rowMajor s e.1), e.2)
  | .permute => l.map fun e => (select xs e.1, e.2)
  | .reduceSum => tabulate order (total (l.map fun e => (select (restAxes s.length xs) e.1, e.2)))
  | .reduceMean =>
    (tabulate order (total (l.map fun e => (select (restAxes s.length xs) e.1, e.2)))).map fun e =>
      (e.1, if (extents s xs).prod = 1 then e.2 else scaleBits (1 / ((extents s xs).prod : V)) e.2)
  | .unfold _ => tabulate order (total (l.map fun e => (unfoldIndex s xs e.1, e.2)))

/-- The cells of the value of a program, in storage order. -/
def Prog.order (e : Prog V) : List (List Int) :=
  match e.check with
  | .ok τ => τ.order
  | .error _ => []

/-- Is the value of the program a `CSR` or `CSC` object? -/
def Prog.compressed (e : Prog V) : Bool :=
  match e.check with
  | .ok τ => τ.compressed
  | .error _ => false

/-- The stored entries of the value of a program, in storage order. -/
def Prog.stores : Prog V → List (List Int × V)
  | .mat f nrows ncols indptr indices data => (SpVal.mat f
      (match f with
      | .csr => ⟨nrows.toNat, ncols.toNat, indptr, indices, data⟩
      | .csc => ⟨ncols.toNat, nrows.toNat, indptr, indices, data⟩)).stores
  | .coo nrows ncols row col data => (SpVal.coo ⟨nrows.toNat, ncols.toNat, row, col, data⟩).stores
  | .nd shape indices data => (SpVal.nd ⟨shape.map Int.toNat, indices, data⟩).stores
  | .un op a => a.stores.map fun e => (e.1, op.bits e.2)
  | .bin op a b => tabulate (Prog.bin op a b).order fun x =>
      let us := valuesAt a.stores (bcastIndex a.shape x)
      let vs := valuesAt b.stores (bcastIndex b.shape x)
      if a.compressed then op.bits (sumAll us) (sumAll vs)
      else sumAll (us.flatMap fun p => vs.map fun q => p * q)
  | .scalar op a alpha => a.stores.map fun e => (e.1, op.scalarBits alpha e.2)
  | .left _ alpha a => a.stores.map fun e => (e.1, scaleBits alpha e.2)
  | .T a =>
    let l := a.stores.map fun e => (e.1.reverse, e.2)
    if a.compressed then tabulate (Prog.T a).order (total l) else l
  | .prune eps a => pruneBits a.compressed eps a.stores
  | .elimZeros a => pruneBits a.compressed 0 a.stores
  | .ndop op arg a => op.bits a.shape (arg.map Int.toNat) (Prog.ndop op arg a).order a.stores
  | .mode f axis a => (NdOp.unfold f).bits a.shape [axis.toNat] (Prog.mode f axis a).order a.stores

/-- Nothing in the program depends on the order in which an unstable sort leaves equal keys: the arrays
that are unfolded store no coordinate twice.  (In sums over axes and in N-D products entries under the
same coordinate are combined in the order of storage.) -/
def Prog.Determined : Prog V → Prop
  | .un _ a => a.Determined
  | .bin _ a b => a.Determined ∧ b.Determined
  | .scalar _ a _ => a.Determined
  | .left _ _ a => a.Determined
  | .T a => a.Determined
  | .prune _ a => a.Determined
  | .elimZeros a => a.Determined
  | .ndop op _ a => a.Determined ∧ (match op with | .unfold _ => a.Distinct | _ => True)
  | .mode _ _ a => a.Determined ∧ a.Distinct
  | _ => True

end
end Lacuna
