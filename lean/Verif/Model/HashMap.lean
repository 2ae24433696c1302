import Verif.Model.Core
/-
`UsizeF64Map` (crates/lacuna-kernels/src/utility/util.rs 33–148): open addressing with
linear probing, power-of-two capacity, `usize::MAX` marks a free slot.

Simplification: `len * 10`, `keys.len() * 7` and the capacity doubling are computed in
`Nat` (no overflow; a table of that size cannot be allocated).
-/
namespace Lacuna
universe u
variable {V : Type u}

/-- `struct UsizeF64Map` (util.rs 33–38). -/
structure HMap (V : Type u) where
  keys : List Nat
  vals : List V
  mask : Nat
  len : Nat

/-- `usize::next_power_of_two`. -/
def nextPow2 (n : Nat) : Nat := if n ≤ 1 then 1 else 2 ^ (Nat.log2 (n - 1) + 1)

namespace HMap

/-- `with_capacity` (util.rs 44–55). -/
def withCapacity [Zero V] (cap : Nat) : HMap V :=
  let cap2 := max (nextPow2 cap) 16
  { keys := List.replicate cap2 usizeMax, vals := List.replicate cap2 0, mask := cap2 - 1, len := 0 }

/-- `hash` (util.rs 59–61): wrapping multiplication on 64 bits. -/
def hash (key : Nat) : Nat := (key * 0x9E3779B97F4A7C15) % 2 ^ 64

/-- The probing loop of `insert_add` (util.rs 69–89): the slot at which it stops, i.e. the
first free slot or slot holding `key`.  `none`: still running after `fuel` iterations. -/
def probe (keys : List Nat) (mask key : Nat) : Nat → Nat → Option Nat
  | 0, _ => none
  | fuel + 1, idx =>
    let k := keys.getD idx usizeMax
    if k = usizeMax then some idx
    else if k = key then some idx
    else probe keys mask key fuel ((idx + 1) &&& mask)

/-- The probing loop of `grow` (util.rs 105–112): first free slot. -/
def probeFree (keys : List Nat) (mask : Nat) : Nat → Nat → Option Nat
  | 0, _ => none
  | fuel + 1, idx =>
    if keys.getD idx usizeMax = usizeMax then some idx
    else probeFree keys mask fuel ((idx + 1) &&& mask)

/-- Body of the rehash loop of `grow` (util.rs 101–114) for one old slot `(k, v)`. -/
def rehash (newMask : Nat) (st : Option (List Nat × List V)) (kv : Nat × V) :
    Option (List Nat × List V) :=
  match st with
  | none => none
  | some (keys, vals) =>
    if kv.1 = usizeMax then some (keys, vals)
    else
      match probeFree keys newMask keys.length (hash kv.1 &&& newMask) with
      | none => none
      | some idx => some (keys.set idx kv.1, vals.set idx kv.2)

/-- `grow` (util.rs 94–117); `none` means a probing loop did not stop. -/
def grow [Zero V] (m : HMap V) : Option (HMap V) :=
  let newCap := m.keys.length * 2
  match (m.keys.zip m.vals).foldl (rehash (newCap - 1))
      (some (List.replicate newCap usizeMax, List.replicate newCap 0)) with
  | none => none
  | some (keys, vals) => some { keys := keys, vals := vals, mask := newCap - 1, len := m.len }

/-- `insert_add` (util.rs 66–90); `none` means a probing loop did not stop. -/
def insertAdd [Zero V] [Add V] (m : HMap V) (key : Nat) (val : V) : Option (HMap V) :=
  match probe m.keys m.mask key m.keys.length (hash key &&& m.mask) with
  | none => none
  | some idx =>
    if m.keys.getD idx usizeMax = usizeMax then
      let m' : HMap V := { m with keys := m.keys.set idx key, vals := m.vals.set idx val, len := m.len + 1 }
      if m'.len * 10 > m'.keys.length * 7 then m'.grow else some m'
    else some { m with vals := m.vals.set idx (m.vals.getD idx 0 + val) }

/-- A sequence of `insert_add` calls. -/
def insertAll [Zero V] [Add V] (m : HMap V) : List (Nat × V) → Option (HMap V)
  | [] => some m
  | (k, v) :: rest => (m.insertAdd k v).bind fun m' => m'.insertAll rest

/-- `pairs` (util.rs 137–147). -/
def pairs (m : HMap V) : List (Nat × V) := (m.keys.zip m.vals).filter fun e => e.1 ≠ usizeMax

/-- `drain_to` (util.rs 121–132); a key outside the slice would be an unchecked access, here
the write is dropped (callers only insert keys below the slice length). -/
def drainTo [Zero V] [Add V] (m : HMap V) (out : List V) : List V :=
  (m.keys.zip m.vals).foldl
    (fun o e => if e.1 ≠ usizeMax then o.set e.1 (o.getD e.1 0 + e.2) else o) out

end HMap
end Lacuna
