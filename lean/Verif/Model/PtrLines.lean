import Verif.Model.PtrSimd
import Verif.Model.PtrTranspose
/-
The per-line reductions (crates/lacuna-kernels/src/statistical/{prod,minmax,varstd,logic}.rs) at
pointer level: the rows of a CSR matrix and the columns of a CSC matrix directly, the other
direction after a transposition (or, for `all` and `any` of CSC rows, a conversion).  Nothing is
assumed about the arrays.
-/
namespace Lacuna
variable {V W : Type}

/-- `i64_to_usize(a.indptr[i])` and `i64_to_usize(a.indptr[i + 1])` (prod.rs 93–94, 146–147;
minmax.rs 131–132, 157–158, 242–243, 268–269; varstd.rs 123–124, 195–196; logic.rs 104–105,
138–139, 235–236, 260–261). -/
def lineSpanP (dbg : Bool) (a : Comp V) (i : Nat) : Except Fault (Nat × Nat) := do
  let s ← i64ToUsizeP dbg (← index a.indptr i)
  let e ← i64ToUsizeP dbg (← index a.indptr (i + 1))
  pure (s, e)

/-- One line of `row_prods_f64`, `col_prods_csc_f64` (prod.rs 93–100, 146–153). -/
def lineProdP [Zero V] [One V] [Mul V] (dbg : Bool) (F : Nat) (a : Comp V) (i : Nat) : Except Fault V := do
  let b ← lineSpanP dbg a i
  let len ← subUsize dbg b.2 b.1
  if len < a.m then pure 0
  else
    let row ← sliceP a.data b.1 b.2
    chunkProdP F row

/-- One line of `row_mins_f64`, `row_maxs_f64`, `col_mins_csc_f64`, `col_maxs_csc_f64`
(minmax.rs 131–143, 157–169, 242–254, 268–280). -/
def lineExtP [Zero V] (dbg : Bool) (F : Nat) (o : ExtOps V) (a : Comp V) (i : Nat) : Except Fault V := do
  let b ← lineSpanP dbg a i
  if b.1 = b.2 then pure 0
  else
    let row ← sliceP a.data b.1 b.2
    let m ← chunkExtP F o row
    let len ← subUsize dbg b.2 b.1
    pure (if len < a.m then o.best m 0 else m)

section
variable [Zero V] [Add V] [Sub V] [Mul V] [Div V] [NatCast V] [HasLt V] [BEq V]

/-- One line of `row_vars_f64`, `col_vars_csc_f64` (varstd.rs 119–126, 191–198). -/
def lineVarP (dbg : Bool) (F : Nat) (correction : V) (a : Comp V) (i : Nat) : Except Fault V :=
  if a.m = 0 then pure 0
  else do
    let b ← lineSpanP dbg a i
    let row ← sliceP a.data b.1 b.2
    let s ← chunkSumsP F row
    pure (varianceFromSums s.1 s.2 a.m correction)

end

/-- One line of `row_alls_f64`, `col_alls_csc_f64` (logic.rs 104–115, 235–242). -/
def lineAllP [Zero V] [BEq V] (dbg : Bool) (a : Comp V) (i : Nat) : Except Fault Bool := do
  let b ← lineSpanP dbg a i
  let len ← subUsize dbg b.2 b.1
  if len < a.m then pure false
  else
    let row ← sliceP a.data b.1 b.2
    pure (!row.any isZero)

/-- One line of `row_anys_f64`, `col_anys_csc_f64` (logic.rs 138–143, 260–264). -/
def lineAnyP [Zero V] [BEq V] (dbg : Bool) (a : Comp V) (i : Nat) : Except Fault Bool := do
  let b ← lineSpanP dbg a i
  let row ← sliceP a.data b.1 b.2
  pure (row.any fun x => !isZero x)

/-- `vec![x; n]` of elements of `w` bytes: more than `isize::MAX` bytes are a "capacity
overflow" panic. -/
def vecP {α : Type} (w n : Nat) (x : α) : Except Fault (List α) :=
  if ((w * n : Nat) : Int) ≤ i64Max then .ok (List.replicate n x) else .error .panic

/-- `let mut out = vec![x; n]; out.par_iter_mut().enumerate().for_each(|(i, oi)| *oi = f(i))`:
every slot belongs to its own iteration. -/
def FillLines (w n : Nat) (x : W) (f : Nat → Except Fault W) (out : Except Fault (List W)) : Prop :=
  match vecP w n x with
  | .error e => out = .error e
  | .ok _ => ParCollect n f out

/-- `row_prods_f64`, `col_prods_csc_f64` (prod.rs 82–103, 135–156). -/
def LineProdsPtr [Zero V] [One V] [Mul V] (dbg : Bool) (F : Nat) (a : Comp V) (out : Except Fault (List V)) :
    Prop :=
  if a.n = 0 then out = .ok []
  else if a.m = 0 then out = vecP 8 a.n 1
  else FillLines 8 a.n 0 (lineProdP dbg F a) out

/-- `row_mins_f64`, `row_maxs_f64`, `col_mins_csc_f64`, `col_maxs_csc_f64` (minmax.rs 126–172,
237–283). -/
def LineExtsPtr [Zero V] (dbg : Bool) (F : Nat) (o : ExtOps V) (a : Comp V) (out : Except Fault (List V)) :
    Prop :=
  FillLines 8 a.n 0 (lineExtP dbg F o a) out

/-- `row_vars_f64`, `col_vars_csc_f64` (varstd.rs 111–129, 183–201). -/
def LineVarsPtr [Zero V] [Add V] [Sub V] [Mul V] [Div V] [NatCast V] [HasLt V] [BEq V] (dbg : Bool) (F : Nat)
    (correction : V) (a : Comp V) (out : Except Fault (List V)) : Prop :=
  if a.n = 0 then out = .ok []
  else FillLines 8 a.n 0 (lineVarP dbg F correction a) out

/-- `row_alls_f64`, `col_alls_csc_f64` (logic.rs 92–118, 220–245). -/
def LineAllsPtr [Zero V] [BEq V] (dbg : Bool) (a : Comp V) (out : Except Fault (List Bool)) : Prop :=
  if a.n = 0 then out = .ok []
  else if a.m = 0 then out = vecP 1 a.n true
  else FillLines 1 a.n false (lineAllP dbg a) out

/-- `row_anys_f64`, `col_anys_csc_f64` (logic.rs 126–146, 249–269). -/
def LineAnysPtr [Zero V] [BEq V] (dbg : Bool) (a : Comp V) (out : Except Fault (List Bool)) : Prop :=
  if a.n = 0 then out = .ok []
  else if a.m = 0 then out = vecP 1 a.n false
  else FillLines 1 a.n false (lineAnyP dbg a) out

/-- `let t = transpose(a); f(&t)`. -/
def AfterPtr {X Y : Type} (first : Except Fault X → Prop) (f : X → Except Fault Y → Prop)
    (out : Except Fault Y) : Prop :=
  ∃ o, first o ∧
    match o with
    | .error x => out = .error x
    | .ok t => f t out

section
variable [Zero V] (dbg : Bool) (F : Nat) (sort : List (Int × V) → List (Int × V)) (threads : Nat)

/-- `col_prods_f64` (prod.rs 107–111). -/
def ColProdsPtr [One V] [Mul V] (a : Csr V) (out : Except Fault (List V)) : Prop :=
  AfterPtr (TransposeCsrPtr dbg F sort threads a) (fun t => LineProdsPtr dbg F t.comp) out
/-- `row_prods_csc_f64` (prod.rs 160–164). -/
def RowProdsCscPtr [One V] [Mul V] (a : Csc V) (out : Except Fault (List V)) : Prop :=
  AfterPtr (TransposeCscPtr dbg F sort threads a) (fun t => LineProdsPtr dbg F t.comp) out
/-- `col_mins_f64`, `col_maxs_f64` (minmax.rs 177–189). -/
def ColExtsPtr (o : ExtOps V) (a : Csr V) (out : Except Fault (List V)) : Prop :=
  AfterPtr (TransposeCsrPtr dbg F sort threads a) (fun t => LineExtsPtr dbg F o t.comp) out
/-- `row_mins_csc_f64`, `row_maxs_csc_f64` (minmax.rs 288–300). -/
def RowExtsCscPtr (o : ExtOps V) (a : Csc V) (out : Except Fault (List V)) : Prop :=
  AfterPtr (TransposeCscPtr dbg F sort threads a) (fun t => LineExtsPtr dbg F o t.comp) out
/-- `col_vars_f64` (varstd.rs 143–146). -/
def ColVarsPtr [Add V] [Sub V] [Mul V] [Div V] [NatCast V] [HasLt V] [BEq V] (correction : V) (a : Csr V)
    (out : Except Fault (List V)) : Prop :=
  AfterPtr (TransposeCsrPtr dbg F sort threads a) (fun t => LineVarsPtr dbg F correction t.comp) out
/-- `row_vars_csc_f64` (varstd.rs 215–218). -/
def RowVarsCscPtr [Add V] [Sub V] [Mul V] [Div V] [NatCast V] [HasLt V] [BEq V] (correction : V) (a : Csc V)
    (out : Except Fault (List V)) : Prop :=
  AfterPtr (TransposeCscPtr dbg F sort threads a) (fun t => LineVarsPtr dbg F correction t.comp) out
/-- `col_alls_f64` (logic.rs 153–158). -/
def ColAllsPtr [BEq V] (a : Csr V) (out : Except Fault (List Bool)) : Prop :=
  AfterPtr (TransposeCsrPtr dbg F sort threads a) (fun t => LineAllsPtr dbg t.comp) out
/-- `col_anys_f64` (logic.rs 163–167). -/
def ColAnysPtr [BEq V] (a : Csr V) (out : Except Fault (List Bool)) : Prop :=
  AfterPtr (TransposeCsrPtr dbg F sort threads a) (fun t => LineAnysPtr dbg t.comp) out

end

/-- `row_alls_csc_f64` (logic.rs 201–206). -/
def RowAllsCscPtr [Zero V] [BEq V] (dbg : Bool) (a : Csc V) (out : Except Fault (List Bool)) : Prop :=
  AfterPtr (CscToCsrPtr dbg a) (fun t => LineAllsPtr dbg t.comp) out
/-- `row_anys_csc_f64` (logic.rs 210–213). -/
def RowAnysCscPtr [Zero V] [BEq V] (dbg : Bool) (a : Csc V) (out : Except Fault (List Bool)) : Prop :=
  AfterPtr (CscToCsrPtr dbg a) (fun t => LineAnysPtr dbg t.comp) out

end Lacuna
