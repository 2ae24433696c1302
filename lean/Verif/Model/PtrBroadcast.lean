import Verif.Model.PtrNdAcc
import Verif.Model.Broadcast
/-
`hadamard_broadcast_coond_f64_i64` (elementwise/multiply.rs 100–308) at pointer level, and the
Python binding `coond_hadamard_broadcast_from_parts` (crates/lacuna-py/src/array_api/elementwise.rs
1482–1543).  Nothing is assumed about the arrays.

Simplifications: allocation of the vectors of shapes, masks and strides, and of the two
`std::collections::HashMap`s, is left out (they are no longer than the arrays they are computed
from).  The hash maps are given by the key of every entry: `get` returns the positions with that
key in increasing order, the order in which they were pushed; `order` is the iteration order.
-/
namespace Lacuna
variable {V : Type}

/-- A step with several possible outcomes followed by another one. -/
def ThenR {α β : Type} (R : Except Fault α → Prop) (S : α → Except Fault β → Prop) (out : Except Fault β) : Prop :=
  ∃ o, R o ∧ match o with
    | .error x => out = .error x
    | .ok v => S v out

/-! ### Normalised indices -/

/-- The value stored for axis `i`: 0 on a padded axis (multiply.rs 179–183, 199–203). -/
def normValP (dbg : Bool) (indices : List Int) (off baseA i : Nat) : Except Fault Int :=
  if off ≤ i then do index indices (← addUsize dbg baseA (i - off)) else pure 0

/-- One axis of entry `k` (multiply.rs 178–187, 198–207). -/
def normStepP (dbg : Bool) (indices : List Int) (off cap baseA baseN : Nat) (evs : List (Nat × Int)) (i : Nat) :
    Except Fault (List (Nat × Int)) := do
  let val ← normValP dbg indices off baseA i
  let p ← addUsize dbg baseN i
  let w ← MutPtr.put ⟨cap, 0⟩ p val
  pure (evs ++ [w])

/-- Entry `k` (multiply.rs 174–188, 194–208); the buffer has `cap` elements. -/
def normItemP (dbg : Bool) (a : CooNd V) (d cap k : Nat) : Except Fault (List (Nat × Int)) := do
  let baseA ← mulUsize dbg k a.shape.length
  let baseN ← mulUsize dbg k d
  (List.range d).foldlM (normStepP dbg a.indices (d - a.shape.length) cap baseA baseN) []

/-- The parallel loop (multiply.rs 170–209). -/
def NormPtr (dbg : Bool) (a : CooNd V) (d : Nat) (buf : List Int) : Except Fault (List Int) → Prop :=
  ThenR (ParEach (List.range a.data.length) (normItemP dbg a d buf.length)) (ParStore buf)

/-! ### Keys -/

/-- One axis of the key loop (multiply.rs 216–223, 230–237): the index is read unchecked. -/
def keyStepP (dbg : Bool) (norm : List Int) (mask : List Bool) (ist : List Nat) (base key i : Nat) : Except Fault Nat := do
  if ← index mask i then
    let x ← i64ToUsizeP dbg (← getUnchecked norm (← addUsize dbg base i))
    let q ← expectP (checkedMul x (← index ist i))
    expectP (checkedAdd key q)
  else pure key

/-- The key of entry `k` (multiply.rs 213–223, 227–237). -/
def keyP (dbg : Bool) (norm : List Int) (d : Nat) (mask : List Bool) (ist : List Nat) (k : Nat) : Except Fault Nat := do
  let base ← mulUsize dbg k d
  (List.range d).foldlM (keyStepP dbg norm mask ist base) 0

/-- `map.get(&key).unwrap()` (multiply.rs 258–259): the entries with this key. -/
def groupP (ks : List Nat) (key : Nat) : Except Fault (List Nat) :=
  match (ks.zipIdx.filter fun e => e.1 == key).map Prod.snd with
  | [] => .error .panic
  | g => .ok g

/-! ### Products -/

/-- What the parallel tasks share. -/
structure BcCtx (V : Type) where
  a : CooNd V
  b : CooNd V
  d : Nat
  ash : List Nat
  ost : List Nat
  na : List Int
  nb : List Int
  ka : List Nat
  kb : List Nat
  keys : List Nat

/-- One axis of the output index (multiply.rs 268–275). -/
def bcLinStepP (dbg : Bool) (c : BcCtx V) (ba bb lin i : Nat) : Except Fault Nat := do
  let ia ← i64ToUsizeP dbg (← getUnchecked c.na (← addUsize dbg ba i))
  let ib ← i64ToUsizeP dbg (← getUnchecked c.nb (← addUsize dbg bb i))
  let s ← index c.ash i
  let idx := if s = 1 then ib else ia
  let q ← expectP (checkedMul idx (← index c.ost i))
  expectP (checkedAdd lin q)

/-- One pair (multiply.rs 263–276). -/
def bcPairP [Zero V] [Add V] [Mul V] (dbg : Bool) (F : Nat) (c : BcCtx V) (ba : Nat) (av : V) (m : HMap V) (kb : Nat) :
    Except Fault (HMap V) := do
  let bb ← mulUsize dbg kb c.d
  let bv ← index c.b.data kb
  let lin ← (List.range c.d).foldlM (bcLinStepP dbg c ba bb) 0
  m.insertAddP dbg F lin (av * bv)

/-- One entry of the group of `a` (multiply.rs 260–278). -/
def bcRowP [Zero V] [Add V] [Mul V] (dbg : Bool) (F : Nat) (c : BcCtx V) (vb : List Nat) (m : HMap V) (ka : Nat) :
    Except Fault (HMap V) := do
  let ba ← mulUsize dbg ka c.d
  let av ← index c.a.data ka
  vb.foldlM (bcPairP dbg F c ba av) m

/-- One key (multiply.rs 257–278). -/
def bcKeyP [Zero V] [Add V] [Mul V] (dbg : Bool) (F : Nat) (c : BcCtx V) (m : HMap V) (idx : Nat) :
    Except Fault (HMap V) := do
  let key ← index c.keys idx
  let va ← groupP c.ka key
  let vb ← groupP c.kb key
  va.foldlM (bcRowP dbg F c vb) m

/-- Task `t` (multiply.rs 252–281). -/
def bcTaskP [Zero V] [Add V] [Mul V] (dbg : Bool) (F : Nat) (c : BcCtx V) (chunk t : Nat) :
    Except Fault (List (Nat × V)) := do
  let start ← mulUsize dbg t chunk
  let e ← addUsize dbg start chunk
  let m ← HMap.withCapacityP dbg 1024
  let m ← (List.range' start (min e c.keys.length - start)).foldlM (bcKeyP dbg F c) m
  m.pairsP

/-- Merging and building (multiply.rs 284–308). -/
def bcMergeP [Zero V] [Add V] (dbg : Bool) (F : Nat) (sort : List (Nat × V) → List (Nat × V)) (out ost : List Nat)
    (parts : List (List (Nat × V))) : Except Fault (CooNd V) := do
  let cap ← parts.foldlM (fun s p => addUsize dbg s p.length) 0
  let m ← HMap.withCapacityP dbg cap
  let m ← parts.foldlM (fun m p => m.insertAllP dbg F p) m
  let pairs ← m.pairsP
  ndBuildP dbg out ost (sort pairs)

/-! ### The kernel -/

/-- Strides and buffers (multiply.rs 141–169): `nnz * d` is an unchecked multiplication. -/
def bcPlanP (dbg : Bool) (a b : CooNd V) (d : Nat) (mask : List Bool) (out : List Nat) :
    Except Fault (List Nat × List Nat × List Int × List Int) := do
  let ost ← expectP (strides? out)
  let ist ← expectP (interStrides? mask out)
  let la ← mulUsize dbg a.data.length d
  let bufA ← zerosP la
  let lb ← mulUsize dbg b.data.length d
  let bufB ← zerosP lb
  pure (ost, ist.1, bufA, bufB)

/-- The keys of all entries (multiply.rs 211–239), the common keys (241–246) and the size of a
chunk (249). -/
def bcKeysP (dbg : Bool) (order : List Nat → List Nat → List Nat) (nthreads : Nat) (na nb : List Int) (nnzA nnzB d : Nat)
    (mask : List Bool) (ist : List Nat) : Except Fault (List Nat × List Nat × Nat) := do
  let ka ← (List.range nnzA).mapM (keyP dbg na d mask ist)
  let kb ← (List.range nnzB).mapM (keyP dbg nb d mask ist)
  let w ← mulUsize dbg (max nthreads 1) 4
  let q ← divP (order ka kb).length w
  pure (ka, kb, max 1 q)

/-- The part after the buffers are filled (multiply.rs 211–308). -/
def BcProductPtr [Zero V] [Add V] [Mul V] (dbg : Bool) (F : Nat) (order : List Nat → List Nat → List Nat) (nthreads : Nat)
    (sort : List (Nat × V) → List (Nat × V)) (a b : CooNd V) (d : Nat) (ash out ost ist : List Nat) (mask : List Bool)
    (na nb : List Int) (o : Except Fault (CooNd V)) : Prop :=
  match bcKeysP dbg order nthreads na nb a.data.length b.data.length d mask ist with
  | .error x => o = .error x
  | .ok (ka, kb, chunk) =>
    let c : BcCtx V := ⟨a, b, d, ash, ost, na, nb, ka, kb, order ka kb⟩
    ThenR (ParCollect ((c.keys.length + chunk - 1) / chunk) (bcTaskP dbg F c chunk))
      (fun parts o => o = bcMergeP dbg F sort out ost parts) o

/-- `hadamard_broadcast_coond_f64_i64` (multiply.rs 100–308), for every schedule. -/
def BroadcastPtr [Zero V] [Add V] [Mul V] (dbg : Bool) (F : Nat) (order : List Nat → List Nat → List Nat) (nthreads : Nat)
    (sort : List (Nat × V) → List (Nat × V)) (a b : CooNd V) (o : Except Fault (CooNd V)) : Prop :=
  let d := max a.shape.length b.shape.length
  let ash := padShape d a.shape
  let bsh := padShape d b.shape
  match expectP (broadcastShape? ash bsh) with
  | .error x => o = .error x
  | .ok out =>
    if a.data.isEmpty || b.data.isEmpty then o = .ok ⟨out, [], []⟩
    else match bcPlanP dbg a b d (interMask ash bsh) out with
      | .error x => o = .error x
      | .ok (ost, ist, bufA, bufB) =>
        ThenR (NormPtr dbg a d bufA) (fun na => ThenR (NormPtr dbg b d bufB) fun nb =>
          BcProductPtr dbg F order nthreads sort a b d ash out ost ist (interMask ash bsh) na nb) o

/-- `coond_hadamard_broadcast_from_parts` (elementwise.rs 1482–1543): `.error` is a fault of the
native code, `.ok (.error msg)` a Python exception.  The shape goes back through
`i64::try_from(s).unwrap()`, which cannot fail as every extent came from an `i64`. -/
def PyBroadcastPtr [Zero V] [Add V] [Mul V] (dbg : Bool) (F : Nat) (order : List Nat → List Nat → List Nat)
    (nthreads : Nat) (sort : List (Nat × V) → List (Nat × V)) (aShape aIndices : List Int) (aData : List V)
    (bShape bIndices : List Int) (bData : List V) (check : Bool) (out : Except Fault (Except String (CooNd V))) : Prop :=
  match convertDims "shape must be non-negative" aShape with
  | .error m => out = .ok (.error m)
  | .ok sa => match CooNd.fromParts sa aIndices aData check with
    | .error m => out = .ok (.error m)
    | .ok a => match convertDims "shape must be non-negative" bShape with
      | .error m => out = .ok (.error m)
      | .ok sb => match CooNd.fromParts sb bIndices bData check with
        | .error m => out = .ok (.error m)
        | .ok b => ∃ o, BroadcastPtr dbg F order nthreads sort a b o ∧ out = o.map .ok

end Lacuna
