import Verif.Model.Ptr
/-
The element-wise CSR/CSC kernels at pointer level
(crates/lacuna-kernels/src/elementwise/{add,subtract,multiply,divide,floor_divide,remainder,power}.rs):
the same functions as in `Model/Elementwise`, this time with positions, raw pointers,
machine-integer casts and both builds (debug, release).
-/
namespace Lacuna

variable {V : Type}

/-- `while p < len && *idx.add(p) == j { acc = f(acc, *val.add(p)); p += 1 }`; state `(p, acc)`
(add.rs 89–92, 93–96; subtract.rs 95–102; multiply.rs 440–448 ...). -/
def runP (F : Nat) (f : V → V → V) (idx : Ptr Int) (val : Ptr V) (len : Nat) (j : Int)
    (p : Nat) (acc : V) : Except Fault (Nat × V) :=
  whileM
    (fun s => andThen (decide (s.1 < len)) (do let k ← idx.get s.1; pure (decide (k = j))))
    (fun s => do let x ← val.get s.1; pure (s.1 + 1, f s.2 x))
    F (p, acc)

/-- `while p < len && *idx.add(p) == j { p += 1 }` (multiply.rs 456–458, 462–464 ...). -/
def skipP (F : Nat) (idx : Ptr Int) (len : Nat) (j : Int) (p : Nat) : Except Fault Nat :=
  whileM
    (fun s => andThen (decide (s < len)) (do let k ← idx.get s; pure (decide (k = j))))
    (fun s => pure (s + 1)) F p

/-- `if p < len { *idx.add(p) } else { i64::MAX }` (add.rs 77–86). -/
def headP (idx : Ptr Int) (len p : Nat) : Except Fault Int :=
  if p < len then idx.get p else pure i64Max

/-- The two positions and the counter of a counting routine. -/
structure CountSt where
  pa : Nat
  pb : Nat
  cnt : Nat

/-- The two positions, `dst`, and the stores made so far of a filling routine. -/
structure FillSt (V : Type) where
  pa : Nat
  pb : Nat
  dst : Nat
  out : Stores V

/-- The pointer arguments of a row routine. -/
structure RowArgs (V : Type) where
  ai : Ptr Int
  av : Ptr V
  alen : Nat
  bi : Ptr Int
  bv : Ptr V
  blen : Nat

/-- `ptr::write(out_i.add(dst), j); ptr::write(out_v.add(dst), v); dst += 1`
(add.rs 160–166). -/
def emitP (oi ov : MutPtr) (j : Int) (v : V) (s : FillSt V) : Except Fault (FillSt V) := do
  let wi ← oi.put s.dst j
  let wv ← ov.put s.dst v
  pure { s with dst := s.dst + 1, out := (s.out.1 ++ [wi], s.out.2 ++ [wv]) }

section union
variable [Zero V] [BEq V] [Add V]

/-- `add_row_count` — add.rs 65–102 (`fb = (+)`); `sub_row_count` — subtract.rs 71–108
(`fb = (-)`). -/
def unionCountP (fb : V → V → V) (F : Nat) (r : RowArgs V) : Except Fault Nat := do
  let s ← whileM
    (fun (s : CountSt) => pure (decide (s.pa < r.alen) || decide (s.pb < r.blen)))
    (fun s => do
      let ja ← headP r.ai r.alen s.pa
      let jb ← headP r.bi r.blen s.pb
      let j := if ja ≤ jb then ja else jb
      let (pa, v) ← runP F (· + ·) r.ai r.av r.alen j s.pa 0
      let (pb, v) ← runP F fb r.bi r.bv r.blen j s.pb v
      pure ⟨pa, pb, if v == 0 then s.cnt else s.cnt + 1⟩)
    F ⟨0, 0, 0⟩
  pure s.cnt

/-- `add_row_count` — add.rs 65–102. -/
def addRowCountP : Nat → RowArgs V → Except Fault Nat := unionCountP (· + ·)
/-- `sub_row_count` — subtract.rs 71–108. -/
def subRowCountP [Sub V] : Nat → RowArgs V → Except Fault Nat := unionCountP (· - ·)

/-- `add_row_fill` — add.rs 126–169.  Returns `(dst, stores)`. -/
def addRowFillP (F : Nat) (r : RowArgs V) (oi ov : MutPtr) : Except Fault (Nat × Stores V) := do
  let s ← whileM
    (fun (s : FillSt V) => pure (decide (s.pa < r.alen) || decide (s.pb < r.blen)))
    (fun s => do
      let ja ← headP r.ai r.alen s.pa
      let jb ← headP r.bi r.blen s.pb
      let j := if ja ≤ jb then ja else jb
      let (pa, v) ← runP F (· + ·) r.ai r.av r.alen j s.pa 0
      let (pb, v) ← runP F (· + ·) r.bi r.bv r.blen j s.pb v
      let s := { s with pa := pa, pb := pb }
      if v == 0 then pure s else emitP oi ov j v s)
    F ⟨0, 0, 0, ([], [])⟩
  pure (s.dst, s.out)

/-- `sub_row_fill` — subtract.rs 132–193. -/
def subRowFillP [Sub V] (F : Nat) (r : RowArgs V) (oi ov : MutPtr) :
    Except Fault (Nat × Stores V) := do
  let s ← whileM
    (fun (s : FillSt V) => pure (decide (s.pa < r.alen) || decide (s.pb < r.blen)))
    (fun s => do
      let ja ← headP r.ai r.alen s.pa
      let jb ← headP r.bi r.blen s.pb
      if ja ≤ jb then
        let j := ja
        let (pa, v) ← runP F (· + ·) r.ai r.av r.alen j s.pa 0
        let (pb, v) ←
          if jb = j then runP F (· - ·) r.bi r.bv r.blen j s.pb v else pure (s.pb, v)
        let s := { s with pa := pa, pb := pb }
        if v == 0 then pure s else emitP oi ov j v s
      else
        let j := jb
        let (pb, v) ← runP F (· - ·) r.bi r.bv r.blen j s.pb 0
        let s := { s with pb := pb }
        if v == 0 then pure s else emitP oi ov j v s)
    F ⟨0, 0, 0, ([], [])⟩
  pure (s.dst, s.out)

end union

section inter
variable [Zero V] [Add V]

/-- `hadamard_row_count` — multiply.rs 422–469, `div_row_count` — divide.rs 48–106,
`floordiv_row_count` — floor_divide.rs 44–93, `rem_row_count` — remainder.rs 33–83,
`pow_row_count` — power.rs 33–80; `keep sa sb` is the condition for `cnt += 1`. -/
def interCountP (keep : V → V → Bool) (F : Nat) (r : RowArgs V) : Except Fault Nat := do
  let s ← whileM
    (fun (s : CountSt) => pure (decide (s.pa < r.alen) && decide (s.pb < r.blen)))
    (fun s => do
      let ja ← r.ai.get s.pa
      let jb ← r.bi.get s.pb
      if ja = jb then
        let (pa, sa) ← runP F (· + ·) r.ai r.av r.alen ja s.pa 0
        let (pb, sb) ← runP F (· + ·) r.bi r.bv r.blen ja s.pb 0
        pure ⟨pa, pb, if keep sa sb then s.cnt + 1 else s.cnt⟩
      else if ja < jb then
        let pa ← skipP F r.ai r.alen ja s.pa
        pure { s with pa := pa }
      else
        let pb ← skipP F r.bi r.blen jb s.pb
        pure { s with pb := pb })
    F ⟨0, 0, 0⟩
  pure s.cnt

/-- `hadamard_row_fill` — multiply.rs 490–543, `div_row_fill` — divide.rs 121–183,
`floordiv_row_fill` — floor_divide.rs 98–153, `rem_row_fill` — remainder.rs 88–144,
`pow_row_fill` — power.rs 85–138; `cell sa sb` is the value written, if any. -/
def interFillP (cell : V → V → Option V) (F : Nat) (r : RowArgs V) (oi ov : MutPtr) :
    Except Fault (Nat × Stores V) := do
  let s ← whileM
    (fun (s : FillSt V) => pure (decide (s.pa < r.alen) && decide (s.pb < r.blen)))
    (fun s => do
      let ja ← r.ai.get s.pa
      let jb ← r.bi.get s.pb
      if ja = jb then
        let (pa, sa) ← runP F (· + ·) r.ai r.av r.alen ja s.pa 0
        let (pb, sb) ← runP F (· + ·) r.bi r.bv r.blen ja s.pb 0
        let s := { s with pa := pa, pb := pb }
        match cell sa sb with
        | some v => emitP oi ov ja v s
        | none => pure s
      else if ja < jb then
        let pa ← skipP F r.ai r.alen ja s.pa
        pure { s with pa := pa }
      else
        let pb ← skipP F r.bi r.blen jb s.pb
        pure { s with pb := pb })
    F ⟨0, 0, 0, ([], [])⟩
  pure (s.dst, s.out)

end inter

/-! ### The drivers (add.rs 194–261, 286–351 and the identical bodies of the other kernels) -/

/-- `sa`, `ea`, `sb`, `eb`, `alen`, `blen` and the four offset pointers of line `i`
(add.rs 203–218 and 236–241, 246–252). -/
def rowArgs (dbg : Bool) (a b : Comp V) (i : Nat) : Except Fault (RowArgs V) := do
  let sa ← i64ToUsizeP dbg (← index a.indptr i)
  let ea ← i64ToUsizeP dbg (← index a.indptr (i + 1))
  let sb ← i64ToUsizeP dbg (← index b.indptr i)
  let eb ← i64ToUsizeP dbg (← index b.indptr (i + 1))
  let alen ← subUsize dbg ea sa
  let blen ← subUsize dbg eb sb
  let ai ← (asPtr a.indices).add sa
  let av ← (asPtr a.data).add sa
  let bi ← (asPtr b.indices).add sb
  let bv ← (asPtr b.data).add sb
  pure ⟨ai, av, alen, bi, bv, blen⟩

/-- The prefix-sum loop (add.rs 223–226), from the value `s` of `indptr[i]` on. -/
def ptrLoopP (dbg : Bool) (s : Int) : List Nat → Except Fault (List Int)
  | [] => pure [s]
  | c :: cs => do
    let c ← usizeToI64P dbg c
    let t ← addI64 dbg s c
    let rest ← ptrLoopP dbg t cs
    pure (s :: rest)

/-- One iteration of the counting pass (add.rs 200–219). -/
def countIter (dbg : Bool) (count : RowArgs V → Except Fault Nat) (a b : Comp V) (i : Nat) :
    Except Fault Nat := do
  let r ← rowArgs dbg a b i
  count r

/-- One iteration of the fill pass (add.rs 235–259); in debug builds the number of elements
written is compared with the pointer difference. -/
def fillIter (dbg : Bool) (fill : RowArgs V → MutPtr → MutPtr → Except Fault (Nat × Stores V))
    (a b : Comp V) (indptr : List Int) (nnz : Nat) (i : Nat) : Except Fault (Stores V) := do
  let r ← rowArgs dbg a b i
  let start ← i64ToUsizeP dbg (← (asPtr indptr).get i)
  let oi ← MutPtr.add ⟨nnz, 0⟩ start
  let ov ← MutPtr.add ⟨nnz, 0⟩ start
  let (written, st) ← fill r oi ov
  let stop ← i64ToUsizeP dbg (← (asPtr indptr).get (i + 1))
  let expected ← subUsize dbg stop start
  if dbg && decide (written ≠ expected) then .error .panic else pure st

/-- The possible outcomes of `op(a, b)` over all schedules: a fault, or the matrix assembled
from the buffers after all stores.  `assert_eq!` on the shapes, counting pass, prefix sum,
allocation of `nnz` zeros, parallel fill. -/
def BinPtrRun [Zero V] (dbg : Bool) (count : RowArgs V → Except Fault Nat)
    (fill : RowArgs V → MutPtr → MutPtr → Except Fault (Nat × Stores V)) (a b : Comp V)
    (out : Except Fault (Comp V)) : Prop :=
  if a.n = b.n ∧ a.m = b.m then
    ∃ oc, ParCollect a.n (countIter dbg count a b) oc ∧
      match oc with
      | .error e => out = .error e
      | .ok counts =>
        match (do
            let indptr ← ptrLoopP dbg 0 counts
            let nnz ← i64ToUsizeP dbg (indptr.getD a.n 0)
            pure (indptr, nnz) : Except Fault (List Int × Nat)) with
        | .error e => out = .error e
        | .ok (indptr, nnz) =>
          ∃ oe, ParCollect a.n (fillIter dbg fill a b indptr nnz) oe ∧
            match oe with
            | .error e => out = .error e
            | .ok evs =>
              (¬ raceFree evs ∧ out = .error .ub) ∨
              (raceFree evs ∧ ∃ wi wv,
                wi.Perm (evs.flatMap Prod.fst) ∧ wv.Perm (evs.flatMap Prod.snd) ∧
                out = .ok ⟨a.n, a.m, indptr, applyWrites (List.replicate nnz 0) wi,
                  applyWrites (List.replicate nnz 0) wv⟩)
  else out = .error .panic

/-- `*_csr_f64_i64(a, b)` at pointer level. -/
def BinCsrPtr [Zero V] (dbg : Bool) (count : RowArgs V → Except Fault Nat)
    (fill : RowArgs V → MutPtr → MutPtr → Except Fault (Nat × Stores V)) (a b : Csr V)
    (out : Except Fault (Csr V)) : Prop :=
  ∃ o, BinPtrRun dbg count fill a.comp b.comp o ∧ out = o.map Comp.toCsr
/-- `*_csc_f64_i64(a, b)` at pointer level. -/
def BinCscPtr [Zero V] (dbg : Bool) (count : RowArgs V → Except Fault Nat)
    (fill : RowArgs V → MutPtr → MutPtr → Except Fault (Nat × Stores V)) (a b : Csc V)
    (out : Except Fault (Csc V)) : Prop :=
  ∃ o, BinPtrRun dbg count fill a.comp b.comp o ∧ out = o.map Comp.toCsc

end Lacuna
