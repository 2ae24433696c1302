import Verif.Model.Elementwise
/-
Pointer-level machine: raw pointers, unchecked reads and writes, machine integers, loops.

At this level nothing is assumed about the stored arrays.  Every raw access is either inside
its allocation or the program is *stuck* with `Fault.ub`; every checked access outside its
slice is `Fault.panic`.  `fuel` bounds the number of iterations of each loop; a loop that
needs more is `Fault.fuel` (so "not `fuel` for all large enough fuel" is termination).
-/
namespace Lacuna

variable {V : Type}

/-- The ways in which a pointer-level program can fail to return. -/
inductive Fault where
  /-- undefined behaviour: access outside an allocation, or a data race -/
  | ub
  /-- a panic: slice index, `assert!`, or (debug builds) overflow and `debug_assert!` -/
  | panic
  /-- the loop bound was too small -/
  | fuel
deriving DecidableEq, Repr

/-- `*const T` pointing into an allocated buffer. -/
structure Ptr (α : Type) where
  buf : List α
  off : Nat

/-- `v.as_ptr()`. -/
def asPtr {α : Type} (v : List α) : Ptr α := ⟨v, 0⟩

/-- `p.add(k)`: the result must be in bounds of the allocation or one past its end
(`std::ptr::add`, safety section). -/
def Ptr.add {α : Type} (p : Ptr α) (k : Nat) : Except Fault (Ptr α) :=
  if p.off + k ≤ p.buf.length then .ok ⟨p.buf, p.off + k⟩ else .error .ub

/-- `*p`. -/
def Ptr.read {α : Type} (p : Ptr α) : Except Fault α :=
  match p.buf[p.off]? with
  | some x => .ok x
  | none => .error .ub

/-- `*p.add(k)`. -/
def Ptr.get {α : Type} (p : Ptr α) (k : Nat) : Except Fault α := do
  let q ← p.add k
  q.read

/-- `v[i]` (bounds-checked). -/
def index {α : Type} (v : List α) (i : Nat) : Except Fault α :=
  match v[i]? with
  | some x => .ok x
  | none => .error .panic

/-- `v.get_unchecked(i)`. -/
def getUnchecked {α : Type} (v : List α) (i : Nat) : Except Fault α :=
  match v[i]? with
  | some x => .ok x
  | none => .error .ub

/-- `*mut T` into an allocation of `cap` elements.  Stores are recorded as events
`(position, value)`; the threads of a parallel pass never read what they store. -/
structure MutPtr where
  cap : Nat
  off : Nat

/-- `p.add(k)` for a `*mut T`. -/
def MutPtr.add (p : MutPtr) (k : Nat) : Except Fault MutPtr :=
  if p.off + k ≤ p.cap then .ok ⟨p.cap, p.off + k⟩ else .error .ub

/-- `std::ptr::write(p, x)`: the event, if the position is inside the allocation. -/
def MutPtr.write {α : Type} (p : MutPtr) (x : α) : Except Fault (Nat × α) :=
  if p.off < p.cap then .ok (p.off, x) else .error .ub

/-- `std::ptr::write(p.add(k), x)`. -/
def MutPtr.put {α : Type} (p : MutPtr) (k : Nat) (x : α) : Except Fault (Nat × α) := do
  let q ← p.add k
  q.write x

/-! ### Machine integers.  `dbg` selects a build with debug assertions and overflow checks. -/

/-- `x as usize` for `x : i64`. -/
def asUsize (x : Int) : Nat := (x % 2 ^ 64).toNat
/-- Two's complement value of an integer. -/
def wrapI64 (x : Int) : Int := (x + 2 ^ 63) % 2 ^ 64 - 2 ^ 63

/-- `i64_to_usize` — add.rs 25–31 (and the copies in every other kernel file). -/
def i64ToUsizeP (dbg : Bool) (x : Int) : Except Fault Nat :=
  if dbg && decide (x < 0) then .error .panic else .ok (asUsize x)

/-- `usize_to_i64` — add.rs 35–41. -/
def usizeToI64P (dbg : Bool) (x : Nat) : Except Fault Int :=
  if dbg && decide (i64Max < (x : Int)) then .error .panic else .ok (wrapI64 x)

/-- `a - b` on `usize`. -/
def subUsize (dbg : Bool) (a b : Nat) : Except Fault Nat :=
  if b ≤ a then .ok (a - b)
  else if dbg then .error .panic else .ok (a + 2 ^ 64 - b)

/-- `a + b` on `i64`. -/
def addI64 (dbg : Bool) (a b : Int) : Except Fault Int :=
  if -(2 ^ 63) ≤ a + b ∧ a + b ≤ i64Max then .ok (a + b)
  else if dbg then .error .panic else .ok (wrapI64 (a + b))

/-! ### Control flow -/

/-- `while cond(s) { s = body(s) }`. -/
def whileM {σ : Type} (cond : σ → Except Fault Bool) (body : σ → Except Fault σ) :
    Nat → σ → Except Fault σ
  | 0, _ => .error .fuel
  | fuel + 1, s => do
    if ← cond s then
      let s ← body s
      whileM cond body fuel s
    else pure s

/-- `a && b` where evaluating `b` may fault. -/
def andThen (c : Bool) (d : Except Fault Bool) : Except Fault Bool := if c then d else pure false

/-- `(0..n).into_par_iter().map(f).collect()`: the results in order; if some iterations
fault, the outcome is the fault of one of them. -/
def ParCollect {α : Type} (n : Nat) (f : Nat → Except Fault α) : Except Fault (List α) → Prop
  | .ok l => (List.range n).map f = l.map .ok
  | .error e => ∃ i, i < n ∧ f i = .error e

/-- What one iteration of a fill pass stores, per output buffer. -/
abbrev Stores (V : Type) := List (Nat × Int) × List (Nat × V)

/-- Two iterations run in parallel: they must not store to the same position
(otherwise the program has a data race). -/
def raceFree {V : Type} (evs : List (Stores V)) : Prop :=
  evs.Pairwise fun s t =>
    (∀ p ∈ s.1.map Prod.fst, p ∉ t.1.map Prod.fst) ∧ (∀ p ∈ s.2.map Prod.fst, p ∉ t.2.map Prod.fst)

end Lacuna
